import Verif.Proofs.Footprint
import Verif.Proofs.Schedules
import Verif.Proofs.Debug
import Verif.Proofs.QueryApi
import Verif.Props.Properties
import Verif.KernelRfl
/-!
# C94: what does not refer to query builders

User code included: custom builders and functions are any programs (`Prog`).
-/

namespace Sqlf.Props

open Spec

/-- The builder refers to no query builder, neither do the fragments and the code in it. -/
def NoQueries (b : Builder) : Prop := RefsIn (fun _ => False) b

/-- Nor do the functions and the fragment that a context offers. -/
structure CtxNoQueries (ctx : Ctx) : Prop where
  functions : ∀ name f, ctx.fn name = some f → RefsInB (fun _ => False) f.body
  fragments : ∀ fr, ctx.frame = some fr → ∀ b ∈ fr.frags, NoQueries b

private theorem done_of_in {t : Th α} (h : AccessIn (fun _ => False) t) : ∃ a, t = .done a := by
  cases t with
  | done a => exact ⟨a, rfl⟩
  | read r fs k => exact h.1.elim
  | write r f u k => exact h.1.elim

/-- Without query builders, memory is not looked at and nothing is printed. -/
private theorem run_pure (L : GoLib) (n : Nat) {ctx : Ctx} {t : Task} (hc : CtxIn (fun _ => False) ctx)
    (ht : TaskIn (fun _ => False) t) (s s2 : St) (h1 : s2.store = s.store) (h2 : s2.usedA = s.usedA) (h3 : s2.usedF = s.usedF) :
    run L n ctx t s2 = ((run L n ctx t s).1, { (run L n ctx t s).2 with heap := s2.heap, log := s2.log }) := by
  have key : ∀ s : St, ∃ a, crun L n ctx t s.priv = .done a ∧ a.1 = (run L n ctx t s).1 ∧
      a.2 = (run L n ctx t s).2.priv ∧ (run L n ctx t s).2.heap = s.heap := by
    intro s
    obtain ⟨a, ha⟩ := done_of_in (run_in (S := fun _ => False) L n ctx t hc ht s.priv)
    have := (run_csim eq_sameLook L n ctx t).out s.priv s.heap
    rw [ha] at this
    exact ⟨a, ha, this⟩
  have quiet : ∀ s : St, (run L n ctx t s).2.log = s.log := by
    intro s
    obtain ⟨a, k1, k2, k3, k4⟩ := key s
    obtain ⟨a', k1', k2', k3', k4'⟩ := key { s with heap := [] }
    have e : ({ s with heap := [] } : St).priv = s.priv := rfl
    rw [e, k1] at k1'
    cases k1'
    have := ((run_eff notPrinted_effRel L n ctx t).out { s with heap := [] } (by simp)).1
    rw [k3] at k3'
    have e2 : (run L n ctx t s).2.log = (run L n ctx t { s with heap := [] }).2.log := congrArg Priv.log k3'
    rw [e2, this]
  obtain ⟨a, k1, k2, k3, k4⟩ := key s2
  have hsim := (run_both eq_qbRel L n ctx t).out { s with heap := s2.heap } s2
    ⟨h1, h2, h3, heapRel_eq rfl⟩
  obtain ⟨a3, m1, m2, m3, m4⟩ := key s
  obtain ⟨a4, m1', m2', m3', m4'⟩ := key { s with heap := s2.heap }
  have e5 : ({ s with heap := s2.heap } : St).priv = s.priv := rfl
  rw [e5, m1] at m1'
  cases m1'
  have q := quiet s2
  have p4 := m3.symm.trans m3'
  obtain ⟨g1, g2, g3, g4, -⟩ := hsim
  refine Prod.ext (g1.trans (m2'.symm.trans m2)) ?_
  have i1 : (run L n ctx t s).2.store = (run L n ctx t { s with heap := s2.heap }).2.store := congrArg Priv.store p4
  have i2 : (run L n ctx t s).2.usedA = (run L n ctx t { s with heap := s2.heap }).2.usedA := congrArg Priv.usedA p4
  have i3 : (run L n ctx t s).2.usedF = (run L n ctx t { s with heap := s2.heap }).2.usedF := congrArg Priv.usedF p4
  show (run L n ctx t s2).2 = _
  generalize (run L n ctx t s2).2 = x at *
  cases x
  simp only [St.mk.injEq]
  simp only at g2 g3 g4 q k4
  exact ⟨g2.trans i1.symm, g3.trans i2.symm, g4.trans i3.symm, k4, q⟩

/-- **C94** Building something that refers to no query builder, in any context that offers none: the outcome depends
only on the arguments committed so far (and the usage of the fragment around it), not on the query builders in memory.
It changes none of them, marks nothing as used and prints nothing: its only effect is on the arguments. -/
theorem C94_only_arguments (L : GoLib) (ctx : Ctx) (hc : CtxNoQueries ctx) (b : Builder) (hb : NoQueries b) (s s' : St)
    (o : Out Str) (h : BuildsTo L ctx b s (o, s')) :
    s' = { s with store := s'.store } ∧
      ∀ heap log, BuildsTo L ctx b { s with heap := heap, log := log } (o, { s with heap := heap, log := log, store := s'.store }) := by
  have hc' : CtxIn (fun _ => False) ctx := ⟨hc.functions, hc.fragments⟩
  obtain ⟨hne, N, h⟩ := h
  have hu := (build_used L N ctx b).out s
  rw [h N (Nat.le_refl _)] at hu
  have hs : s' = { s with store := s'.store } := by
    have := run_pure L N hc' (t := .build b) hb s s rfl rfl rfl
    rw [h N (Nat.le_refl _)] at this
    have e := congrArg Prod.snd this
    obtain ⟨e1, e2⟩ := hu
    simp only at e
    cases s; cases s'
    simp_all
  refine ⟨hs, fun heap log => ⟨hne, N, fun n hn => ?_⟩⟩
  rw [run_pure L n hc' (t := .build b) hb s { s with heap := heap, log := log } rfl rfl rfl, h n hn]
  rw [hs]

/-- **C94** So BuildQuery of it always returns the same, whatever query builders exist and whatever was built
before. -/
theorem C94_always_the_same (L : GoLib) (b : Builder) (hb : NoQueries b) (style : Style) (heap heap' : List QB)
    (o : Out (Str × List Val)) (h : Returns L b style heap o) : Returns L b style heap' o := by
  have hc : CtxIn (fun _ => False) rootCtx := newContext_in (newContext_eq L)
  obtain ⟨hne, N, h⟩ := h
  refine ⟨hne, N, fun n hn => ?_⟩
  rw [← h n hn]
  unfold buildQuery
  rw [buildQueryS_eq, buildQueryS_eq, run_pure L n hc (t := .build b) hb (St.init style heap) (St.init style heap') rfl rfl rfl]
  rcases run L n rootCtx (.build b) (St.init style heap) with ⟨o, t⟩
  cases o <;> rfl

/-- **C94** The trial call by which `#join` tests a function that refers to no query builder: it always has the same
outcome, and it has no effect.  So it does not matter when the function is tested, and how often. -/
theorem C94_trial_call (L : GoLib) (f : FuncInfo) (hf : RefsInB (fun _ => False) f.body) (n : Nat) (s s2 : St) :
    joinCompatible (run L n) f s2 = ((joinCompatible (run L n) f s).1, s2) := by
  unfold joinCompatible
  split
  · rfl
  · have hp := run_pure L n (t := .call f [.int 0]) ctxIn_empty hf
      { s with store := .new question, usedA := [], usedF := [] }
      { s2 with store := .new question, usedA := [], usedF := [] } rfl rfl rfl
    dsimp only
    rw [hp]
    rcases run L n newEmptyContext.withNilFragment (.call f [.int 0]) { s with store := .new question, usedA := [], usedF := [] } with ⟨o, t⟩
    cases o <;> rfl

/-- A tree with user code that commits an argument, builds a fragment and recovers from its error. -/
def pureTree : Builder := .frag (.Ff (lit "#f1 #f2") [.custom (.commit (.int 64 7) fun t => .build (.frag (.F (lit "?"))) fun
    | .ok u => .ret (t ++ u)
    | .error _ => .ret (lit "x = " ++ t)), .table (lit "t")])

example : NoQueries pureTree ∧ CtxNoQueries rootCtx := by
  refine ⟨?_, ?_⟩
  · simp only [NoQueries, pureTree, Fragment.Ff, RefsIn, RefsInF, RefsInL, RefsInP, and_true, true_and]
    intro t
    refine ⟨by simp [Fragment.F, RefsInF, RefsInL], fun r => ?_⟩
    cases r <;> simp [RefsInP]
  · have : CtxIn (fun _ => False) rootCtx := newContext_in (newContext_eq ⟨fun _ => false, fun _ => none, fun _ => 0, fun _ s => s, fun _ => []⟩)
    exact ⟨this.fn, this.frame⟩

example (L : GoLib) (heap : List QB) : Returns L pureTree dollar heap (.ok (lit "x = $1 t", [.int 64 7])) :=
  returns_of_buildQuery (n := 200) (by kernel_rfl) (by simp)

/-- The function of a shared list (C91) is one that `#join` accepts, whenever it is tested. -/
theorem sharedFunc_join (L : GoLib) : ∃ f, (idCtx L [.int 64 1]).fn (lit "_id") = some f ∧ RefsInB (fun _ => False) f.body ∧
    ∀ s, joinCompatible (run L 200) f s = (.ok true, s) := by
  obtain ⟨ins, v, outs, body, h1, h2⟩ := C91_lists_are_shared L rootCtx (idCtx L [.int 64 1])
    [(lit "_id", propertiesFunc L (newArgsProperties [.int 64 1]))] (by simp [IsMap]) _ _ (List.mem_singleton.2 rfl) (by kernel_rfl)
  cases h1
  have hf : RefsInB (fun _ => False) (Body.custom fun vs => propertiesBuild (newArgsProperties [.int 64 1]) ((vs.getD 0 .context).toInt L)) := by
    show ∀ vs, RefsInP _ (propertiesBuild _ _)
    intro vs
    generalize ArgVal.toInt L _ = i
    unfold propertiesBuild
    split
    · trivial
    · split
      · rename_i b hb
        have := List.mem_of_getElem? hb
        simp only [newArgsProperties, List.map_cons, List.map_nil, List.mem_singleton] at this
        subst this
        refine ⟨fun t => trivial, fun r => ?_⟩
        cases r <;> trivial
      · trivial
  refine ⟨_, h2, hf, fun s => ?_⟩
  rw [C94_trial_call L _ hf 200 (St.init question []) s]
  exact congrArg (·, s) (by kernel_rfl)

end Sqlf.Props
