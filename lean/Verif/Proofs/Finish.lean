import Verif.Spec.Finish
import Verif.Proofs.Halting
import Verif.Proofs.Jobs
import Verif.Proofs.Blame
/-!
# Programs that end
-/

namespace Sqlf

open Spec

/-- The property holds of a fragment exactly if it holds of the fragments in it. -/
class FragClosed (P : Builder → Prop) : Prop where
  frag : ∀ f : Fragment, P (.frag f) ↔ ∀ c ∈ f.frags, P c
  nilFrag : P .nilFrag

def PartsAre (P : Builder → Prop) (b : QB) : Prop := ∀ c ∈ partsOf b, P c

section
variable {P : Builder → Prop}

/-- The parts one by one. -/
theorem partsAre_iff {b : QB} : PartsAre P b ↔ (∀ c ∈ b.ctes.map (·.builder), P c) ∧
    (∀ c ∈ b.tableList.map rowBuilder, P c) ∧ (∀ c ∈ b.conditions.frags, P c) ∧
    (∀ c ∈ b.groupbys.frags, P c) ∧ (∀ c ∈ b.orders.map (·.column), P c) ∧
    (∀ c ∈ b.selects.frags, P c) ∧ (∀ c ∈ b.touches.frags, P c) ∧ ∀ c ∈ b.unions, P c := by
  unfold PartsAre
  constructor
  · intro h
    exact ⟨fun c hc => h c (mem_partsOf.2 (.inl hc)), fun c hc => h c (mem_partsOf.2 (.inr (.inl hc))),
      fun c hc => h c (mem_partsOf.2 (.inr (.inr (.inl hc)))), fun c hc => h c (mem_partsOf.2 (.inr (.inr (.inr (.inl hc))))), fun c hc => h c (mem_partsOf.2 (.inr (.inr (.inr (.inr (.inl hc)))))),
      fun c hc => h c (mem_partsOf.2 (.inr (.inr (.inr (.inr (.inr (.inl hc))))))), fun c hc => h c (mem_partsOf.2 (.inr (.inr (.inr (.inr (.inr (.inr (.inl hc)))))))), fun c hc => h c (mem_partsOf.2 (.inr (.inr (.inr (.inr (.inr (.inr (.inr hc))))))))⟩
  · rintro ⟨h1, h2, h3, h4, h5, h6, h7, h8⟩ c hc
    rcases mem_partsOf.1 hc with h | h | h | h | h | h | h | h
    · exact h1 c h
    · exact h2 c h
    · exact h3 c h
    · exact h4 c h
    · exact h5 c h
    · exact h6 c h
    · exact h7 c h
    · exact h8 c h

variable [hP : FragClosed P]

/-- Rows come from the row that is put, or were there before, or are blank. -/
theorem cells_are {b b' : QB} (h : ∀ c ∈ b.tableList.map rowBuilder, P c) {new : FromTable}
    (hn : P (rowBuilder new))
    (ht : ∀ p ∈ b'.tables, b'.cell p = new ∨ (p ∈ b.tables ∧ b'.cell p = b.cell p) ∨ (b'.cell p).fragment = none) :
    ∀ c ∈ b'.tableList.map rowBuilder, P c := by
  intro c hc
  obtain ⟨t, h1, rfl⟩ := List.mem_map.1 hc
  obtain ⟨p, h2, rfl⟩ := List.mem_map.1 h1
  rcases ht p h2 with h3 | ⟨h3, h4⟩ | h3
  · rw [h3]; exact hn
  · rw [h4]; exact h _ (List.mem_map_of_mem (List.mem_map_of_mem h3))
  · unfold rowBuilder; rw [h3]; exact hP.nilFrag

theorem from_are {b : QB} (h : PartsAre P b) (t : TableAliased) : PartsAre P (b.from_ t) := by
  unfold QB.from_
  split
  · exact h
  · rw [partsAre_iff] at h ⊢
    refine ⟨h.1, cells_are h.2.1 (new := { names := t, fragment := some (.F (QB.tableAndAlias t)), optional := false }) ?_ ?_, h.2.2⟩
    · exact (hP.frag _).2 fun c hc => nomatch hc
    · intro p hp
      rw [cell_append]
      split
      · exact .inl rfl
      · rename_i hne
        refine .inr (.inl ⟨?_, rfl⟩)
        dsimp only at hp
        split at hp
        · rcases List.mem_append.1 hp with hp | hp
          · exact hp
          · exact absurd (List.mem_singleton.1 hp) hne
        · exact (List.mem_or_eq_of_mem_set hp).resolve_right hne

theorem join_are {b b' : QB} (h : PartsAre P b) {j : Str} {t : TableAliased} {on : Option Fragment} {o : Bool}
    (hon : ∀ f, on = some f → P (.frag f)) (e : b.join j t on o = .ok b') : PartsAre P b' := by
  unfold QB.join at e
  split at e
  · cases e; exact h
  · cases on with
    | none => cases e
    | some f =>
      dsimp only at e
      have hn : ∀ s, P (rowBuilder { names := t, fragment := some (.Ff s [.frag (f.withPrefix (lit "ON"))]), optional := o }) := by
        intro s
        refine (hP.frag _).2 fun c hc => ?_
        cases List.mem_singleton.1 hc
        refine (hP.frag _).2 ?_
        rw [frags_withPrefix]
        exact (hP.frag f).1 (hon f rfl)
      have main : ∀ (new : FromTable), P (rowBuilder new) → ∀ b1 : QB, PartsAre P b1 → (match b1.dictGet t.appliedName with
          | some ptr => Out.ok ({ b1 with cells := b1.cells.set ptr new } : QB)
          | none => Out.ok ({ b1 with
              cells := b1.cells ++ [new]
              tables := b1.tables ++ [b1.cells.length]
              tablesDict := (t.appliedName, b1.cells.length) :: b1.tablesDict } : QB)) = .ok b' → PartsAre P b' := by
        intro new hn b1 h1 e1
        rw [partsAre_iff] at h1
        cases hd : b1.dictGet t.appliedName with
        | some q =>
          rw [hd] at e1
          cases e1
          rw [partsAre_iff]
          refine ⟨h1.1, cells_are h1.2.1 hn ?_, h1.2.2⟩
          intro p hp
          rcases cell_put b1 q p new with h2 | h2
          · exact .inl h2
          · exact .inr (.inl ⟨hp, h2⟩)
        | none =>
          rw [hd] at e1
          cases e1
          rw [partsAre_iff]
          refine ⟨h1.1, cells_are h1.2.1 hn ?_, h1.2.2⟩
          intro p hp
          rw [cell_append]
          split
          · exact .inl rfl
          · rename_i hne
            rcases List.mem_append.1 hp with hp | hp
            · exact .inr (.inl ⟨hp, rfl⟩)
            · exact absurd (List.mem_singleton.1 hp) hne
      refine main _ (hn _) _ ?_ e
      split
      · rw [partsAre_iff] at h ⊢
        refine ⟨h.1, cells_are h.2.1 (new := ⟨⟨[], []⟩, none, false⟩) hP.nilFrag ?_, h.2.2⟩
        intro p hp
        have := cell_append (b := b) (r := ⟨⟨[], []⟩, none, false⟩) (p := p) (ts := b.tables ++ [b.cells.length]) (d := b.tablesDict)
        rw [this]
        split
        · exact .inl rfl
        · rename_i hne
          rcases List.mem_append.1 hp with hp | hp
          · exact .inr (.inl ⟨hp, rfl⟩)
          · exact absurd (List.mem_singleton.1 hp) hne
      · exact h

theorem where_are {b : QB} (h : PartsAre P b) {f : Fragment} (hf : P (.frag f)) : PartsAre P (b.where_ (some f)) := by
  rw [partsAre_iff] at h ⊢
  refine ⟨h.1, h.2.1, fun c hc => ?_, h.2.2.2⟩
  unfold QB.where_ at hc
  dsimp only at hc
  rw [frags_append, List.mem_append] at hc
  rcases hc with hc | hc
  · exact h.2.2.1 c hc
  · cases List.mem_singleton.1 hc; exact hf

theorem whereInOp_are {b b' : QB} (h : PartsAre P b) {c : Builder} (hc : P c) {op : Str} {v : Val}
    (e : b.whereInOp op c v = .ok b') : PartsAre P b' := by
  unfold QB.whereInOp at e
  cases ha : argsFlatted [v] with
  | ok args =>
    rw [ha] at e
    cases e
    refine where_are h ?_
    refine (hP.frag _).2 fun d hd => ?_
    cases List.mem_singleton.1 hd
    exact hc
  | err x => rw [ha] at e; cases e
  | panic x => rw [ha] at e; cases e
  | oof => rw [ha] at e; cases e

theorem apply_are {b b' : QB} (h : PartsAre P b) {c : Call} (hc : CallUses P c) (e : c.apply b = .ok b') : PartsAre P b' := by
  cases c with
  | select cs =>
    cases e
    unfold QB.select
    split
    · exact h
    · rw [partsAre_iff] at h ⊢
      refine ⟨h.1, h.2.1, h.2.2.1, h.2.2.2.1, h.2.2.2.2.1, ?_, h.2.2.2.2.2.2⟩
      dsimp only
      cases b.selects; exact hc
  | groupBy cs =>
    cases e
    rw [partsAre_iff] at h ⊢
    refine ⟨h.1, h.2.1, h.2.2.1, fun c hm => ?_, h.2.2.2.2⟩
    unfold QB.groupBy at hm
    dsimp only at hm
    rw [frags_append, List.mem_append] at hm
    rcases hm with hm | hm
    · exact h.2.2.2.1 c hm
    · exact hc c hm
  | orderBy c o =>
    cases e
    rw [partsAre_iff] at h ⊢
    refine ⟨h.1, h.2.1, h.2.2.1, h.2.2.2.1, fun d hm => ?_, h.2.2.2.2.2⟩
    unfold QB.orderBy at hm
    dsimp only at hm
    rw [List.map_append, List.mem_append] at hm
    rcases hm with hm | hm
    · exact h.2.2.2.2.1 d hm
    · simp only [List.map_cons, List.map_nil, List.mem_singleton] at hm
      subst hm; exact hc
  | union bs =>
    cases e
    rw [partsAre_iff] at h ⊢
    refine ⟨h.1, h.2.1, h.2.2.1, h.2.2.2.1, h.2.2.2.2.1, h.2.2.2.2.2.1, h.2.2.2.2.2.2.1, fun d hm => ?_⟩
    unfold QB.union at hm
    dsimp only at hm
    rcases List.mem_append.1 hm with hm | hm
    · exact h.2.2.2.2.2.2.2 d hm
    · exact hc d hm
  | with_ n d ds =>
    cases e
    rw [partsAre_iff] at h ⊢
    refine ⟨fun x hm => ?_, h.2⟩
    unfold QB.with_ at hm
    dsimp only at hm
    rw [List.map_append, List.mem_append] at hm
    rcases hm with hm | hm
    · exact h.1 x hm
    · simp only [List.map_cons, List.map_nil, List.mem_singleton] at hm
      subst hm; exact hc
  | where_ f =>
    cases e
    cases f with
    | none => exact h
    | some f => exact where_are h hc
  | where2 c op v =>
    cases e
    refine where_are (f := ((Fragment.F (lit "#f1" ++ op ++ lit "$1")).withFragments [c]).withArgs [v]) h ?_
    refine (hP.frag _).2 fun d hd => ?_
    cases List.mem_singleton.1 hd
    exact hc
  | whereIn c v => exact whereInOp_are h hc e
  | whereNotIn c v => exact whereInOp_are h hc e
  | from_ t => cases e; exact from_are h t
  | innerJoin t on => exact join_are h (by rintro f rfl; exact hc) e
  | leftJoin t on => exact join_are h (by rintro f rfl; exact hc) e
  | leftJoinOptional t on => exact join_are h (by rintro f rfl; exact hc) e
  | rightJoin t on => exact join_are h (by rintro f rfl; exact hc) e
  | fullJoin t on => exact join_are h (by rintro f rfl; exact hc) e
  | crossJoin t => exact join_are (j := lit "CROSS JOIN") (on := none) (o := false) h (by rintro f ⟨⟩) e
  | limit n => cases e; unfold QB.setLimit; split <;> exact h
  | offset n => cases e; unfold QB.setOffset; split <;> exact h
  | distinct => cases e; exact h
  | debug => cases e; exact h


end

theorem addsTameL_iff : ∀ bs, AddsTameL bs ↔ ∀ c ∈ bs, AddsTame c
  | [] => ⟨fun _ _ h => (nomatch h), fun _ => trivial⟩
  | b :: bs => by simp [AddsTameL, addsTameL_iff bs]

instance lowIn_closed (rank : Nat → Nat) (r : Nat) : FragClosed (LowIn rank r) where
  frag f := by
    constructor
    · rintro ⟨h1, h2⟩ c hc
      refine ⟨(refsInF_iff f).1 h1 c hc, ?_⟩
      cases f with
      | mk raw as frags p q => exact (addsTameL_iff frags).1 h2 c hc
    · intro h
      refine ⟨(refsInF_iff f).2 fun c hc => (h c hc).1, ?_⟩
      cases f with
      | mk raw as frags p q => exact (addsTameL_iff frags).2 fun c hc => (h c hc).2
  nilFrag := ⟨trivial, trivial⟩

theorem argsFrom_total (v : Val) : (∃ vs, argsFrom v = .ok vs) ∨ ∃ p, argsFrom v = .panic p := by
  unfold argsFrom
  split <;> first | exact .inl ⟨_, rfl⟩ | exact .inr ⟨_, rfl⟩

theorem whereInOp_total (b : QB) (op : Str) (c : Builder) (v : Val) :
    (∃ b', b.whereInOp op c v = .ok b') ∨ ∃ p, b.whereInOp op c v = .panic p := by
  unfold QB.whereInOp
  rcases argsFrom_total v with ⟨vs, h⟩ | ⟨p, h⟩
  · exact .inl (by simp [argsFlatted, h])
  · exact .inr (by simp [argsFlatted, h])

theorem join_total (b : QB) (j : Str) (t : TableAliased) (on : Option Fragment) (o : Bool) :
    (∃ b', b.join j t on o = .ok b') ∨ ∃ p, b.join j t on o = .panic p := by
  unfold QB.join
  split
  · exact .inl ⟨_, rfl⟩
  · cases on with
    | none => exact .inr ⟨_, rfl⟩
    | some f =>
      dsimp only
      split <;> split <;> exact .inl ⟨_, rfl⟩

/-- A call returns or panics. -/
theorem apply_total (b : QB) (c : Call) : (∃ b', c.apply b = .ok b') ∨ ∃ p, c.apply b = .panic p := by
  cases c with
  | whereIn c v => exact whereInOp_total ..
  | whereNotIn c v => exact whereInOp_total ..
  | innerJoin t on => exact join_total ..
  | leftJoin t on => exact join_total ..
  | leftJoinOptional t on => exact join_total ..
  | rightJoin t on => exact join_total ..
  | fullJoin t on => exact join_total ..
  | crossJoin t => exact join_total b (lit "CROSS JOIN") t none false
  | _ => exact .inl ⟨_, rfl⟩

/-- `BuildQuery` in a memory of such query builders. -/
theorem query_ends {L : GoLib} {rank : Nat → Nat} {heap : List QB} (hh : AllLow rank heap) {b : Builder} (hb : AddsTame b) (style : Style) :
    ∃ o log heap', ReturnsLogging L b style heap o log heap' ∧ AllLow rank heap' ∧ heap'.length = heap.length := by
  obtain ⟨⟨o, s⟩, ⟨N, h1⟩, h2, h3⟩ := builder_ends (H := AllLow rank) (L := L) (S := fun _ => True) (fun r _ => all_build r) b
    (refsIn_all b) hb rootCtx rootCtx_builtin.tame (St.init style heap) hh
  have hlen : s.heap.length = heap.length := by
    have h4 := (run_grownQBs L N rootCtx (.build b)).out (St.init style heap)
    have h5 := h1 N (Nat.le_refl _)
    dsimp only at h5
    rw [h5] at h4
    exact h4.2
  cases o with
  | oof => exact absurd rfl h2
  | ok t => exact ⟨.ok (t, s.store.args), s.log, s.heap, ⟨nofun, N, fun n hn => by
      have := h1 n hn; dsimp only at this; rw [buildQueryS, newContext_eq]; dsimp only; rw [this]; exact ⟨rfl, rfl, rfl⟩⟩, h3, hlen⟩
  | err e => exact ⟨.err e, s.log, s.heap, ⟨nofun, N, fun n hn => by
      have := h1 n hn; dsimp only at this; rw [buildQueryS, newContext_eq]; dsimp only; rw [this]; exact ⟨rfl, rfl, rfl⟩⟩, h3, hlen⟩
  | panic p => exact ⟨.panic p, s.log, s.heap, ⟨nofun, N, fun n hn => by
      have := h1 n hn; dsimp only at this; rw [buildQueryS, newContext_eq]; dsimp only; rw [this]; exact ⟨rfl, rfl, rfl⟩⟩, h3, hlen⟩

theorem jobs_end {L : GoLib} {rank : Nat → Nat} (jobs : List Job) (hj : ∀ j ∈ jobs, JobTame rank j) : ∀ heap, AllLow rank heap →
    (∀ r c, .call r c ∈ jobs → r < heap.length) → ∃ shown, DoneAlone L heap jobs shown := by
  induction jobs with
  | nil => intro heap _ _; exact ⟨_, .nil heap⟩
  | cons j jobs ih =>
    intro heap hh hr
    have ih := ih fun j h => hj j (.tail _ h)
    have h0 := hj j (.head _)
    cases j with
    | build b style =>
      obtain ⟨o, log, heap', h1, h2, hlen⟩ := query_ends (L := L) hh (b := b) h0 style
      by_cases hp : ∃ p, o = .panic p
      · obtain ⟨p, rfl⟩ := hp
        exact ⟨_, .buildPanics h1⟩
      · obtain ⟨rest, h3⟩ := ih heap' h2 fun r c h => hlen ▸ hr r c (.tail _ h)
        exact ⟨_, .build h1 (fun p h => hp ⟨p, h⟩) h3⟩
    | call r c =>
      have hlt := hr r c (.head _)
      rcases apply_total heap[r] c with ⟨b', h⟩ | ⟨p, h⟩
      · obtain ⟨rest, h3⟩ := ih (heap.set r b') (hh.set (apply_are (P := LowIn rank r) (hh r _ (List.getElem?_eq_getElem hlt)) h0 h))
          fun r' c' h' => by rw [List.length_set]; exact hr r' c' (.tail _ h')
        exact ⟨_, .call (List.getElem?_eq_getElem hlt) h h3⟩
      · exact ⟨_, .callPanics (List.getElem?_eq_getElem hlt) h⟩

end Sqlf
