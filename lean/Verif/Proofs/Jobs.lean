import Verif.Spec.Jobs
import Verif.Proofs.Schedules
import Verif.Proofs.Tables
/-!
# Goroutines that make and build queries
-/

namespace Sqlf

open Spec

/-! ## what calls change -/

theorem withPrefix_pre (f : Fragment) : f.withPrefix f.pre = f := by cases f; rfl

theorem join_field {b b' : QB} {j : Str} {t : TableAliased} {on : Option Fragment} {o : Bool} (h : b.join j t on o = .ok b') :
    withField (if t.name = [] then .errors else .tables) b' b = b' := by
  unfold QB.join at h
  by_cases e : t.name = []
  · rw [if_pos e] at h ⊢
    cases h; rfl
  · rw [if_neg e] at h ⊢
    cases on with
    | none => cases h
    | some f =>
      dsimp only at h
      split at h
      · split at h <;> (cases h; rfl)
      · split at h <;> (cases h; rfl)

/-- A call changes one field at most. -/
theorem apply_field {c : Call} {b b' : QB} (h : c.apply b = .ok b') :
    match callField c with
    | some f => withField f b' b = b'
    | none => b' = b := by
  have hj : ∀ {j : Str} {t : TableAliased} {on : Option Fragment} {o : Bool}, b.join j t on o = .ok b' →
      match (if t.name = [] then some Field.errors else some .tables) with
      | some f => withField f b' b = b'
      | none => b' = b := by
    intro j t on o h
    have := join_field h
    split at this <;> simp_all
  have hin : ∀ {op : Str} {l : Builder} {v : Val}, b.whereInOp op l v = .ok b' → withField .conditions b' b = b' := by
    intro op l v h
    unfold QB.whereInOp at h
    cases e : argsFlatted [v] with
    | ok args => rw [e] at h; cases h; rfl
    | err x => rw [e] at h; cases h
    | panic x => rw [e] at h; cases h
    | oof => rw [e] at h; cases h
  cases c with
  | select cs =>
    cases h
    unfold callField QB.select
    by_cases e : cs.length = 0
    · simp [e]
    · simp only [e, if_false]
      unfold withField
      cases b.selects; rfl
  | limit n => cases h; unfold callField QB.setLimit; by_cases e : n > 0 <;> simp [e, withField]
  | offset n => cases h; unfold callField QB.setOffset; by_cases e : n > 0 <;> simp [e, withField]
  | where_ f => cases h; cases f <;> rfl
  | whereIn c v => exact hin h
  | whereNotIn c v => exact hin h
  | from_ t =>
    cases h
    unfold callField QB.from_
    by_cases e : t.name = []
    · simp only [e, if_true]; rfl
    · simp only [e, if_false]; rfl
  | innerJoin t on => exact hj h
  | leftJoin t on => exact hj h
  | leftJoinOptional t on => exact hj h
  | rightJoin t on => exact hj h
  | fullJoin t on => exact hj h
  | crossJoin t => exact hj (j := lit "CROSS JOIN") (on := none) (o := false) h
  | _ => cases h; rfl

/-! ## what calls refer to -/

mutual
theorem RefsIn.mono {S T : Nat → Prop} (hST : ∀ r, S r → T r) : ∀ b, RefsIn S b → RefsIn T b
  | .frag f, h => RefsInF.mono hST f h
  | .column _ f, h => RefsInF.mono hST f h
  | .qb r, h => hST r h
  | .custom p, h => RefsInP.mono hST p h
  | .nil, _ => trivial
  | .nilFrag, _ => trivial
  | .nilColumn, _ => trivial
  | .columnNilFrag _, _ => trivial
  | .table _, _ => trivial
  | .aliased _ _, _ => trivial
  | .nilQb, _ => trivial
theorem RefsInF.mono {S T : Nat → Prop} (hST : ∀ r, S r → T r) : ∀ f, RefsInF S f → RefsInF T f
  | .mk _ _ frags _ _, h => RefsInL.mono hST frags h
theorem RefsInL.mono {S T : Nat → Prop} (hST : ∀ r, S r → T r) : ∀ bs, RefsInL S bs → RefsInL T bs
  | [], _ => trivial
  | b :: bs, h => ⟨RefsIn.mono hST b h.1, RefsInL.mono hST bs h.2⟩
theorem RefsInP.mono {S T : Nat → Prop} (hST : ∀ r, S r → T r) : ∀ p, RefsInP S p → RefsInP T p
  | .ret _, _ => trivial
  | .fail _, _ => trivial
  | .panic _ _, _ => trivial
  | .commit _ k, h => fun t => RefsInP.mono hST (k t) (h t)
  | .args k, h => fun vs => RefsInP.mono hST (k vs) (h vs)
  | .build b k, h => ⟨RefsIn.mono hST b h.1, fun r => RefsInP.mono hST (k r) (h.2 r)⟩
  | .buildWith fm b k, h => ⟨RefsInM.mono hST fm h.1, RefsIn.mono hST b h.2.1, fun r => RefsInP.mono hST (k r) (h.2.2 r)⟩
  | .query _ b k, h => ⟨RefsIn.mono hST b h.1, fun r => RefsInP.mono hST (k r) (h.2 r)⟩
theorem RefsInM.mono {S T : Nat → Prop} (hST : ∀ r, S r → T r) : ∀ fm, RefsInM S fm → RefsInM T fm
  | [], _ => trivial
  | p :: fm, h => ⟨RefsInE.mono hST p h.1, RefsInM.mono hST fm h.2⟩
theorem RefsInE.mono {S T : Nat → Prop} (hST : ∀ r, S r → T r) : ∀ e, RefsInE S e → RefsInE T e
  | (_, v), h => RefsInV.mono hST v h
theorem RefsInV.mono {S T : Nat → Prop} (hST : ∀ r, S r → T r) : ∀ v, RefsInV S v → RefsInV T v
  | .notFunc, _ => trivial
  | .func _ _ _ body, h => RefsInB.mono hST body h
theorem RefsInB.mono {S T : Nat → Prop} (hST : ∀ r, S r → T r) : ∀ b, RefsInB S b → RefsInB T b
  | .builtin _, _ => trivial
  | .custom p, h => fun vs => RefsInP.mono hST (p vs) (h vs)
end

section
variable {S : Nat → Prop}

/-- The parts one by one. -/
theorem qbIn_iff {b : QB} : QBIn S b ↔ (∀ c ∈ b.ctes.map (·.builder), RefsIn S c) ∧
    (∀ c ∈ b.tableList.map rowBuilder, RefsIn S c) ∧ (∀ c ∈ b.conditions.frags, RefsIn S c) ∧
    (∀ c ∈ b.groupbys.frags, RefsIn S c) ∧ (∀ c ∈ b.orders.map (·.column), RefsIn S c) ∧
    (∀ c ∈ b.selects.frags, RefsIn S c) ∧ (∀ c ∈ b.touches.frags, RefsIn S c) ∧ ∀ c ∈ b.unions, RefsIn S c := by
  unfold QBIn
  constructor
  · intro h
    exact ⟨fun c hc => h c (mem_partsOf.2 (.inl hc)), fun c hc => h c (mem_partsOf.2 (.inr (.inl hc))),
      QBIn.conditions h, QBIn.groupbys h, fun c hc => h c (mem_partsOf.2 (.inr (.inr (.inr (.inr (.inl hc)))))),
      QBIn.selects h, QBIn.touches h, QBIn.union h⟩
  · rintro ⟨h1, h2, h3, h4, h5, h6, h7, h8⟩ c hc
    rcases mem_partsOf.1 hc with h | h | h | h | h | h | h | h
    · exact h1 c h
    · exact h2 c h
    · exact h3 c h
    · exact h4 c h
    · exact h5 c h
    · exact h6 c h
    · exact h7 c h
    · exact h8 c h

theorem withField_in {b b' : QB} (h : QBIn S b) (h' : QBIn S b') (f : Field) : QBIn S (withField f b' b) := by
  rw [qbIn_iff] at h h' ⊢
  obtain ⟨h1, h2, h3, h4, h5, h6, h7, h8⟩ := h
  obtain ⟨g1, g2, g3, g4, g5, g6, g7, g8⟩ := h'
  cases f with
  | ctes => exact ⟨g1, h2, h3, h4, h5, h6, h7, h8⟩
  | tables => exact ⟨h1, g2, h3, h4, h5, h6, h7, h8⟩
  | selects => exact ⟨h1, h2, h3, h4, h5, by unfold withField; rw [frags_withPrefix]; exact g6, h7, h8⟩
  | selectsPrefix => exact ⟨h1, h2, h3, h4, h5, by unfold withField; rw [frags_withPrefix]; exact h6, h7, h8⟩
  | touches => exact ⟨h1, h2, h3, h4, h5, h6, g7, h8⟩
  | conditions => exact ⟨h1, h2, g3, h4, h5, h6, h7, h8⟩
  | orders => exact ⟨h1, h2, h3, h4, g5, h6, h7, h8⟩
  | groupbys => exact ⟨h1, h2, h3, g4, h5, h6, h7, h8⟩
  | unions => exact ⟨h1, h2, h3, h4, h5, h6, h7, g8⟩
  | _ => exact ⟨h1, h2, h3, h4, h5, h6, h7, h8⟩

/-- Rows come from the row that is put, or were there before, or are blank. -/
theorem cells_in {b b' : QB} (h : ∀ c ∈ b.tableList.map rowBuilder, RefsIn S c) {new : FromTable}
    (hn : RefsIn S (rowBuilder new))
    (ht : ∀ p ∈ b'.tables, b'.cell p = new ∨ (p ∈ b.tables ∧ b'.cell p = b.cell p) ∨ (b'.cell p).fragment = none) :
    ∀ c ∈ b'.tableList.map rowBuilder, RefsIn S c := by
  intro c hc
  obtain ⟨t, h1, rfl⟩ := List.mem_map.1 hc
  obtain ⟨p, h2, rfl⟩ := List.mem_map.1 h1
  rcases ht p h2 with h3 | ⟨h3, h4⟩ | h3
  · rw [h3]; exact hn
  · rw [h4]; exact h _ (List.mem_map_of_mem (List.mem_map_of_mem h3))
  · unfold rowBuilder; rw [h3]; trivial

theorem cell_put (b : QB) (q p : Nat) (r : FromTable) :
    ({ b with cells := b.cells.set q r } : QB).cell p = r ∨ ({ b with cells := b.cells.set q r } : QB).cell p = b.cell p := by
  by_cases h : q < b.cells.length
  · rw [cell_set h]; split
    · exact .inl rfl
    · exact .inr rfl
  · rw [List.set_eq_of_length_le (by omega)]; exact .inr rfl

theorem from_in {b : QB} (h : QBIn S b) (t : TableAliased) : QBIn S (b.from_ t) := by
  unfold QB.from_
  split
  · exact h
  · rw [qbIn_iff] at h ⊢
    refine ⟨h.1, cells_in h.2.1 (new := { names := t, fragment := some (.F (QB.tableAndAlias t)), optional := false }) ?_ ?_, h.2.2⟩
    · simp [rowBuilder, RefsIn, Fragment.F, RefsInF, RefsInL]
    · intro p hp
      rw [cell_append]
      split
      · exact .inl rfl
      · rename_i hne
        refine .inr (.inl ⟨?_, rfl⟩)
        dsimp only at hp
        split at hp
        · rcases List.mem_append.1 hp with hp | hp
          · exact hp
          · exact absurd (List.mem_singleton.1 hp) hne
        · exact (List.mem_or_eq_of_mem_set hp).resolve_right hne

theorem join_in {b b' : QB} (h : QBIn S b) {j : Str} {t : TableAliased} {on : Option Fragment} {o : Bool}
    (hon : ∀ f, on = some f → RefsInF S f) (e : b.join j t on o = .ok b') : QBIn S b' := by
  unfold QB.join at e
  split at e
  · cases e; exact h
  · cases on with
    | none => cases e
    | some f =>
      dsimp only at e
      have hn : ∀ s, RefsIn S (rowBuilder { names := t, fragment := some (.Ff s [.frag (f.withPrefix (lit "ON"))]), optional := o }) := by
        intro s
        have : RefsInF S (f.withPrefix (lit "ON")) := by
          rw [refsInF_iff, frags_withPrefix, ← refsInF_iff]; exact hon f rfl
        simp [rowBuilder, RefsIn, Fragment.Ff, RefsInF, RefsInL, this]
      have main : ∀ (new : FromTable), RefsIn S (rowBuilder new) → ∀ b1 : QB, QBIn S b1 → (match b1.dictGet t.appliedName with
          | some ptr => Out.ok ({ b1 with cells := b1.cells.set ptr new } : QB)
          | none => Out.ok ({ b1 with
              cells := b1.cells ++ [new]
              tables := b1.tables ++ [b1.cells.length]
              tablesDict := (t.appliedName, b1.cells.length) :: b1.tablesDict } : QB)) = .ok b' → QBIn S b' := by
        intro new hn b1 h1 e1
        rw [qbIn_iff] at h1
        cases hd : b1.dictGet t.appliedName with
        | some q =>
          rw [hd] at e1
          cases e1
          rw [qbIn_iff]
          refine ⟨h1.1, cells_in h1.2.1 hn ?_, h1.2.2⟩
          intro p hp
          rcases cell_put b1 q p new with h2 | h2
          · exact .inl h2
          · exact .inr (.inl ⟨hp, h2⟩)
        | none =>
          rw [hd] at e1
          cases e1
          rw [qbIn_iff]
          refine ⟨h1.1, cells_in h1.2.1 hn ?_, h1.2.2⟩
          intro p hp
          rw [cell_append]
          split
          · exact .inl rfl
          · rename_i hne
            rcases List.mem_append.1 hp with hp | hp
            · exact .inr (.inl ⟨hp, rfl⟩)
            · exact absurd (List.mem_singleton.1 hp) hne
      refine main _ (hn _) _ ?_ e
      split
      · rw [qbIn_iff] at h ⊢
        refine ⟨h.1, cells_in h.2.1 (new := ⟨⟨[], []⟩, none, false⟩) trivial ?_, h.2.2⟩
        intro p hp
        have := cell_append (b := b) (r := ⟨⟨[], []⟩, none, false⟩) (p := p) (ts := b.tables ++ [b.cells.length]) (d := b.tablesDict)
        rw [this]
        split
        · exact .inl rfl
        · rename_i hne
          rcases List.mem_append.1 hp with hp | hp
          · exact .inr (.inl ⟨hp, rfl⟩)
          · exact absurd (List.mem_singleton.1 hp) hne
      · exact h

theorem where_in {b : QB} (h : QBIn S b) {f : Fragment} (hf : RefsInF S f) : QBIn S (b.where_ (some f)) := by
  rw [qbIn_iff] at h ⊢
  refine ⟨h.1, h.2.1, fun c hc => ?_, h.2.2.2⟩
  unfold QB.where_ at hc
  dsimp only at hc
  rw [frags_append, List.mem_append] at hc
  rcases hc with hc | hc
  · exact h.2.2.1 c hc
  · cases List.mem_singleton.1 hc; exact hf

theorem whereInOp_in {b b' : QB} (h : QBIn S b) {c : Builder} (hc : RefsIn S c) {op : Str} {v : Val}
    (e : b.whereInOp op c v = .ok b') : QBIn S b' := by
  unfold QB.whereInOp at e
  cases ha : argsFlatted [v] with
  | ok args =>
    rw [ha] at e
    cases e
    refine where_in h ?_
    simp [Fragment.F, Fragment.withFragments, Fragment.withArgs, RefsInF, RefsInL, hc]
  | err x => rw [ha] at e; cases e
  | panic x => rw [ha] at e; cases e
  | oof => rw [ha] at e; cases e

theorem apply_in {b b' : QB} (h : QBIn S b) {c : Call} (hc : CallIn S c) (e : c.apply b = .ok b') : QBIn S b' := by
  cases c with
  | select cs =>
    cases e
    unfold QB.select
    split
    · exact h
    · rw [qbIn_iff] at h ⊢
      refine ⟨h.1, h.2.1, h.2.2.1, h.2.2.2.1, h.2.2.2.2.1, ?_, h.2.2.2.2.2.2⟩
      dsimp only
      cases b.selects; exact hc
  | groupBy cs =>
    cases e
    rw [qbIn_iff] at h ⊢
    refine ⟨h.1, h.2.1, h.2.2.1, fun c hm => ?_, h.2.2.2.2⟩
    unfold QB.groupBy at hm
    dsimp only at hm
    rw [frags_append, List.mem_append] at hm
    rcases hm with hm | hm
    · exact h.2.2.2.1 c hm
    · exact hc c hm
  | orderBy c o =>
    cases e
    rw [qbIn_iff] at h ⊢
    refine ⟨h.1, h.2.1, h.2.2.1, h.2.2.2.1, fun d hm => ?_, h.2.2.2.2.2⟩
    unfold QB.orderBy at hm
    dsimp only at hm
    rw [List.map_append, List.mem_append] at hm
    rcases hm with hm | hm
    · exact h.2.2.2.2.1 d hm
    · simp only [List.map_cons, List.map_nil, List.mem_singleton] at hm
      subst hm; exact hc
  | union bs =>
    cases e
    rw [qbIn_iff] at h ⊢
    refine ⟨h.1, h.2.1, h.2.2.1, h.2.2.2.1, h.2.2.2.2.1, h.2.2.2.2.2.1, h.2.2.2.2.2.2.1, fun d hm => ?_⟩
    unfold QB.union at hm
    dsimp only at hm
    rcases List.mem_append.1 hm with hm | hm
    · exact h.2.2.2.2.2.2.2 d hm
    · exact hc d hm
  | with_ n d ds =>
    cases e
    rw [qbIn_iff] at h ⊢
    refine ⟨fun x hm => ?_, h.2⟩
    unfold QB.with_ at hm
    dsimp only at hm
    rw [List.map_append, List.mem_append] at hm
    rcases hm with hm | hm
    · exact h.1 x hm
    · simp only [List.map_cons, List.map_nil, List.mem_singleton] at hm
      subst hm; exact hc
  | where_ f =>
    cases e
    cases f with
    | none => exact h
    | some f => exact where_in h hc
  | where2 c op v =>
    cases e
    refine where_in (f := ((Fragment.F (lit "#f1" ++ op ++ lit "$1")).withFragments [c]).withArgs [v]) h ?_
    have : RefsIn S c := hc
    simp [Fragment.F, Fragment.withFragments, Fragment.withArgs, RefsInF, RefsInL, this]
  | whereIn c v => exact whereInOp_in h hc e
  | whereNotIn c v => exact whereInOp_in h hc e
  | from_ t => cases e; exact from_in h t
  | innerJoin t on => exact join_in h (by rintro f rfl; exact hc) e
  | leftJoin t on => exact join_in h (by rintro f rfl; exact hc) e
  | leftJoinOptional t on => exact join_in h (by rintro f rfl; exact hc) e
  | rightJoin t on => exact join_in h (by rintro f rfl; exact hc) e
  | fullJoin t on => exact join_in h (by rintro f rfl; exact hc) e
  | crossJoin t => exact join_in (j := lit "CROSS JOIN") (on := none) (o := false) h (by rintro f ⟨⟩) e
  | limit n => cases e; unfold QB.setLimit; split <;> exact h
  | offset n => cases e; unfold QB.setOffset; split <;> exact h
  | distinct => cases e; exact h
  | debug => cases e; exact h

/-- The query builders that the jobs refer to, and call methods of, are in `S`. -/
def JobIn (S : Nat → Prop) : Job → Prop
  | .build b _ => RefsIn S b
  | .call r c => S r ∧ CallIn S c

theorem callThread_in {r : Nat} {c : Call} (hr : S r) (hc : CallIn S c) : AccessIn S (callThread r c) := by
  refine ⟨hr, fun o ho => ?_⟩
  cases o with
  | none => trivial
  | some b =>
    dsimp only
    cases e : c.apply b with
    | ok b' =>
      dsimp only
      cases callField c with
      | none => trivial
      | some f => exact ⟨hr, fun d hd => withField_in hd (apply_in (ho b rfl) hc e) f, fun _ => trivial⟩
    | _ => trivial

theorem jobsThread_in (L : GoLib) (fuel : Nat) {jobs : List Job} (h : ∀ j ∈ jobs, JobIn S j) :
    AccessIn S (jobsThread L fuel jobs) := by
  induction jobs with
  | nil => trivial
  | cons j jobs ih =>
    have ih := ih fun j hj => h j (.tail _ hj)
    have hj := h j (.head _)
    cases j with
    | build b style =>
      refine AccessIn.bind (buildThread_in L fuel hj style) fun r => ?_
      cases r.1 with
      | panic p => trivial
      | _ => exact AccessIn.bind ih fun _ => trivial
    | call r c =>
      refine AccessIn.bind (callThread_in hj.1 hj.2) fun ok => ?_
      cases ok with
      | false => trivial
      | true => exact AccessIn.bind ih fun _ => trivial

end

end Sqlf
