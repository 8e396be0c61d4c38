import Verif.Spec.Again
import Verif.Proofs.Reorder
import Verif.Proofs.Grown
/-!
# Builds that leave query builders as they are

Only the prefix of the SELECT clause changes; it is set again by every build.
-/

namespace Sqlf

open Spec

/-- Equal but for the prefix of the SELECT clause. -/
def SelectsOnly (b b' : QB) : Prop := ∃ p, b' = { b with selects := b.selects.withPrefix p }

theorem SelectsOnly.refl (b : QB) : SelectsOnly b b := by
  obtain ⟨p, hp⟩ := withPrefix_self b.selects
  refine ⟨p, ?_⟩
  rw [← hp]

theorem SelectsOnly.trans {a b c : QB} (h : SelectsOnly a b) (h' : SelectsOnly b c) : SelectsOnly a c := by
  obtain ⟨p, rfl⟩ := h
  obtain ⟨q, rfl⟩ := h'
  exact ⟨q, by rw [withPrefix_withPrefix]⟩

theorem frags_withPrefix (f : Fragment) (p : Str) : (f.withPrefix p).frags = f.frags := by cases f; rfl

/-- What the dependencies are collected from. -/
theorem deps_same {b b' : QB} (hx : extractTables b'.depRoots = extractTables b.depRoots) (hc : b'.ctes = b.ctes)
    (hd : b'.distinct = b.distinct) (ht : b'.tableList = b.tableList) (hr : ∀ n, resolve b' n = resolve b n)
    (hs : b'.tablesDict.length = b.tablesDict.length) : b'.collectDependencies = b.collectDependencies := by
  have hf : b'.depFuel = b.depFuel := by unfold QB.depFuel; rw [hs, hc]
  have hm : b'.markCtes = b.markCtes := by
    funext deps ts
    unfold QB.markCtes
    have hg : b'.cteGet = b.cteGet := by
      funext m; unfold QB.cteGet; rw [hc]
    rw [hd, hg, depsFromCte_same hc, hf]
  unfold QB.collectDependencies
  rw [hx, ht, depsFromTable_same hr, hf, hm]

theorem selectsOnly_rel : QBRel SelectsOnly where
  errors := by rintro b _ ⟨p, rfl⟩; rfl
  deps := by
    rintro b _ ⟨p, rfl⟩
    refine deps_same ?_ rfl rfl rfl (fun _ => rfl) rfl
    unfold QB.depRoots extractTables
    dsimp only
    cases b.selects
    rfl
  ctes := by rintro b _ ⟨p, rfl⟩; rfl
  distinct := by rintro b _ ⟨p, rfl⟩; rfl
  tables := by rintro b _ ⟨p, rfl⟩; rfl
  conditions := by rintro b _ ⟨p, rfl⟩; rfl
  groupbys := by rintro b _ ⟨p, rfl⟩; rfl
  orders := by rintro b _ ⟨p, rfl⟩; rfl
  limit := by rintro b _ ⟨p, rfl⟩; rfl
  offset := by rintro b _ ⟨p, rfl⟩; rfl
  unions := by rintro b _ ⟨p, rfl⟩; rfl
  debug := by rintro b _ ⟨p, rfl⟩; rfl
  touches := by rintro b _ ⟨p, rfl⟩; rfl
  selects := by rintro b _ ⟨p, rfl⟩ q; exact withPrefix_withPrefix ..
  ordersQ := by rintro b _ ⟨p, rfl⟩ ts es; exact ⟨p, rfl⟩
  selectsQ := by
    rintro b _ ⟨p, rfl⟩ q
    refine ⟨q, ?_⟩
    simp only [withPrefix_withPrefix]

/-- Builds do not add columns or errors to this query builder. -/
def SteadyQB (b : QB) : Prop := (∀ o ∈ b.orders, orderText o.order ≠ none) ∧ (b.distinct = false ∨ b.orders = [])

/-- SteadyQB query builders are only changed in the prefix of the SELECT clause. -/
structure KeptQBs (s s' : St) : Prop where
  length : s'.heap.length = s.heap.length
  each : ∀ (r : Nat) (b : QB), s.heap[r]? = some b → SteadyQB b → ∃ b', s'.heap[r]? = some b' ∧ SelectsOnly b b'

theorem SelectsOnly.steady {b b' : QB} (h : SelectsOnly b b') (hb : SteadyQB b) : SteadyQB b' := by
  obtain ⟨p, rfl⟩ := h
  exact hb

theorem kept_same {s s' : St} (h : s'.heap = s.heap) : KeptQBs s s' :=
  ⟨by rw [h], fun r b hb _ => ⟨b, by rw [h]; exact hb, .refl b⟩⟩

theorem kept_set {s : St} {r : Nat} {b b' : QB} (hr : s.heap[r]? = some b) (h : SteadyQB b → SelectsOnly b b') :
    KeptQBs s (setQB s r b') := by
  refine ⟨by simp [setQB], fun r' b1 h1 hs => ?_⟩
  unfold setQB
  dsimp only
  by_cases e : r = r'
  · subst e
    rw [hr] at h1
    cases h1
    have := (List.getElem?_eq_some_iff.1 hr).1
    exact ⟨b', by rw [List.getElem?_set_self this], h hs⟩
  · exact ⟨b1, by rw [List.getElem?_set_ne e]; exact h1, .refl _⟩

theorem orderItems_steady {b : QB} (h : SteadyQB b) :
    (orderItems b.distinct 0 b.orders).2.1 = [] ∧ (orderItems b.distinct 0 b.orders).2.2 = [] := by
  obtain ⟨h1, h2, h3⟩ := orderItems_eq b.distinct 0 b.orders
  refine ⟨?_, h3.2 h.1⟩
  rw [h2]
  cases hc : orderColumns b.distinct (0 + 1) b.orders with
  | nil => rfl
  | cons t ts =>
    obtain ⟨h4, o, h5, _⟩ := orderColumns_touch (t := t) (by rw [hc]; simp)
    rcases h.2 with h6 | h6
    · rw [h4] at h6; cases h6
    · rw [h6] at h5; cases h5

theorem kept_effRel : EffRel KeptQBs where
  refl s := kept_same rfl
  trans h h' := by
    refine ⟨h'.length.trans h.length, fun r b hb hs => ?_⟩
    obtain ⟨b1, h1, h2⟩ := h.each r b hb hs
    obtain ⟨b2, h3, h4⟩ := h'.each r b1 h1 (h2.steady hs)
    exact ⟨b2, h3, h2.trans h4⟩
  commit s v p st h := kept_same rfl
  markA s k := kept_same rfl
  markF s k := kept_same rfl
  fresh s s' h := ⟨h.length, h.each⟩
  own _ s s' h := ⟨h.length, h.each⟩
  orders s r b h := kept_set h fun hs => by
    obtain ⟨h1, h2⟩ := orderItems_steady hs
    rw [h1, h2, appendFragments_nil, List.append_nil]
    exact .refl b
  selects s r b p h := kept_set h fun _ => ⟨p, rfl⟩
  log _ _ _ _ _ _ := kept_same rfl

theorem Spec.BuildsTo.kept {L : GoLib} {ctx : Ctx} {c : Builder} {s s' : St} {o : Out Str}
    (h : BuildsTo L ctx c s (o, s')) : KeptQBs s s' := by
  obtain ⟨-, N, h⟩ := h
  have := (run_eff kept_effRel L N ctx (.build c)).out s
  rw [h N (Nat.le_refl _)] at this
  exact this

theorem Spec.AfterBuilds.heapRel {L : GoLib} {heap heap' : List QB} (h : AfterBuilds L heap heap')
    (hs : ∀ b ∈ heap, SteadyQB b) : HeapRel SelectsOnly heap heap' := by
  have key : heap'.length = heap.length ∧
      ∀ (r : Nat) (b : QB), heap[r]? = some b → ∃ b', heap'[r]? = some b' ∧ SelectsOnly b b' := by
    induction h with
    | none => exact ⟨rfl, fun r b hb => ⟨b, hb, .refl b⟩⟩
    | build _ hb ih =>
      refine ⟨hb.kept.length.trans ih.1, fun r b h1 => ?_⟩
      obtain ⟨b1, h2, h3⟩ := ih.2 r b h1
      obtain ⟨b2, h4, h5⟩ := hb.kept.each r b1 h2 (h3.steady (hs b (List.mem_of_getElem? h1)))
      exact ⟨b2, h4, h3.trans h5⟩
  refine ⟨fun r hr => ?_, key.2⟩
  rw [List.getElem?_eq_none_iff] at hr ⊢
  omega

end Sqlf
