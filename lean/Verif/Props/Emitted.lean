import Verif.Proofs.Emitted
import Verif.KernelRfl
/-!
# C56, C57, C60: exactly the tables and CTEs of a query
-/

namespace Sqlf.Props

open Spec

/-- **C60** (and C56, C57) Exactly which CTEs and tables a query has, the cases in which C56 and C60 are false of the
code included: the CTEs `Emitted` and the tables `TableWritten` (`Verif.Spec.Emitted`), in the order in which they were
declared and joined. -/
theorem C60_exactly_what_is_written (L : GoLib) (ctx : Ctx) (hj : BuiltIn L ctx (lit "join"))
    (hf : BuiltIn L ctx (lit "fragment")) (cs : List Call) (b : QB) (hm : Made L cs b) (hn : NoClash cs) (ho : OneFrom cs)
    (r : Nat) (s s' : St) (hr : s.heap[r]? = some b) (q : Str) (h : BuildsTo L ctx (.qb r) s (.ok q, s')) :
    ∃ (writes : Cte → Bool) (joins : FromTable → Bool) (touches : List Builder) (p : Parts),
      QueryBuilt L ctx cs ((declaredBy cs).filter writes) ((tablesBy cs).filter joins) touches s p s' ∧ q = p.text ∧
      (∀ c ∈ declaredBy cs, writes c = true ↔ Emitted cs c.name) ∧
      ∀ row ∈ tablesBy cs, joins row = true ↔ TableWritten cs row := by
  obtain ⟨dep, ⟨h1, _, ⟨touches, p, mid, post, h2, h3, _⟩, _⟩⟩ := query_ok ⟨hj, hf⟩ hr hm h
  obtain ⟨main, rest, dep0, h4, h5, h6⟩ := collected_marks hm hn h1
  obtain ⟨h7, h8⟩ := marked_iff hm hn ho h4 h5 h6
  rw [hm.list hn] at h2
  refine ⟨_, _, touches, p, h2, h3, fun c hc => ?_, h8⟩
  rw [← h7 c hc]
  simp [cteKept]

/-- The hypotheses are met. -/
example (L : GoLib) : ∃ ctx s q s', BuiltIn L ctx (lit "join") ∧ BuiltIn L ctx (lit "fragment") ∧
    Made L depCalls depQB ∧ NoClash depCalls ∧ OneFrom depCalls ∧ s.heap[0]? = some depQB ∧
    BuildsTo L ctx (.qb 0) s (.ok q, s') := depQB_builds L

def plainCteCalls : List Call :=
  [.select [tableColumn (lit "c") (lit "id")], .with_ (lit "d") (.frag (.F (lit "SELECT 1"))) [],
    .with_ (lit "c") (.frag (.F (lit "SELECT * FROM d"))) [lit "d"], .from_ ⟨lit "c", []⟩]

/-- The query of `C60_counterexample`: `c` is written, but not `d`, which it depends on, because `c` is a plain table. -/
example : Emitted plainCteCalls (lit "c") ∧ PlainTable plainCteCalls (lit "c") ∧ ¬ Emitted plainCteCalls (lit "d") := by
  have hp : PlainTable plainCteCalls (lit "c") := ⟨_, .inl rfl, rfl⟩
  refine ⟨.used (row := fromRow ⟨lit "c", []⟩) ⟨List.mem_singleton.2 rfl, .inl rfl⟩ rfl, hp, ?_⟩
  have : ∀ n, Emitted plainCteCalls n → n = lit "c" := by
    intro n h
    induction h with
    | used hr hc =>
      cases List.mem_singleton.1 (show _ ∈ [fromRow ⟨lit "c", []⟩] from hr.1)
      rfl
    | dep _ hnp _ _ _ ih => subst ih; exact absurd hp hnp
  intro h
  exact absurd (this _ h) (by decide)

def joinedCteCalls : List Call :=
  [.distinct, .select [tableColumn (lit "u") (lit "id")], .with_ (lit "d") (.frag (.F (lit "SELECT 1"))) [],
    .with_ (lit "e") (.frag (.F (lit "SELECT 2"))) [lit "d"], .from_ ⟨lit "u", []⟩,
    .innerJoin ⟨lit "e", []⟩ (some (.F (lit "true"))),
    .leftJoinOptional ⟨lit "d", []⟩ (some (.F (lit "d.x = 1")))]

/-- The query of `C56_counterexample`: the optional join of `d` is written, because `e` is, which depends on the CTE `d`. -/
example : ∃ row ∈ tablesBy joinedCteCalls, row.names = ⟨lit "d", []⟩ ∧ row.optional = true ∧ TableWritten joinedCteCalls row := by
  refine ⟨_, List.mem_cons_of_mem _ (List.mem_cons_of_mem _ List.mem_cons_self), rfl, rfl,
    .inr ⟨List.mem_cons_of_mem _ (List.mem_cons_of_mem _ List.mem_cons_self), rfl, ?_⟩⟩
  refine .dep (n := lit "e") (.used (row := (tablesBy joinedCteCalls).getD 1 blankRow) ⟨?_, .inr (.inl rfl)⟩ rfl) ?_ rfl (List.mem_singleton.2 rfl) rfl
  · exact List.mem_cons_of_mem _ List.mem_cons_self
  · have need : ∀ t, NeededBy joinedCteCalls t → t = lit "u" := by
      intro t ht
      induction ht with
      | root h => exact List.mem_singleton.1 h
      | on _ hr hu ih =>
        subst ih
        cases hr
        cases hu
    rintro ⟨row, h | ⟨h, _⟩, e⟩
    · cases h
      revert e
      decide +kernel
    · exact absurd (need _ h) (by decide)

end Sqlf.Props
