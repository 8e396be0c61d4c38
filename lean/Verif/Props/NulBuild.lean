import Verif.Props.Reader
import Verif.Proofs.Api
import Verif.KernelRfl
/-!
# C06: fragments with a NUL
-/

namespace Sqlf

open Spec

theorem buildFragment_nul (L : GoLib) (rec : Rec) (n : Nat) (ctx : Ctx) (raw : Str) (args : List Val) (frags : List Builder)
    (pre suf : Str) (s s' : St) (q : Str) :
    buildFragment L rec n ctx (.mk raw args frags pre suf) s = (.ok q, s') ↔
      buildFragment L rec n ctx (.mk (beforeNul raw) args frags pre suf) s = (.ok q, s') := by
  have hc : ctx.withFragment (.mk raw args frags pre suf) = ctx.withFragment (.mk (beforeNul raw) args frags pre suf) := rfl
  unfold buildFragment withFreshUsage
  rw [hc]
  generalize ctx.withFragment (.mk (beforeNul raw) args frags pre suf) = ctx'
  unfold buildBody
  simp only [Fragment.raw, Fragment.args, Fragment.frags, Fragment.pre, Fragment.suf]
  rw [parse_beforeNul]
  cases parse L raw with
  | error e => simp [M.err]
  | ok es =>
    dsimp only
    unfold M.bind M.wrapErr
    rcases buildClause L rec n ctx' es { s with usedA := [], usedF := [] } with ⟨o, s1⟩
    cases o with
    | ok t =>
      dsimp only
      cases checkUsage { args := args, frags := frags } s1 <;> simp
    | err e => simp
    | panic p => simp
    | oof => simp

namespace Props

/-- **C06** So a fragment builds exactly if the fragment with the text before the first NUL does, and to the same: what
follows the NUL is dropped. -/
theorem C06_build_stops_at_nul (L : GoLib) (ctx : Ctx) (raw : Str) (args : List Val) (frags : List Builder) (pre suf : Str)
    (s s' : St) (q : Str) :
    BuildsTo L ctx (.frag (.mk raw args frags pre suf)) s (.ok q, s') ↔
      BuildsTo L ctx (.frag (.mk (beforeNul raw) args frags pre suf)) s (.ok q, s') := by
  unfold BuildsTo
  refine and_congr_right fun _ => ⟨fun ⟨N, h⟩ => ⟨N + 1, fun n hn => ?_⟩, fun ⟨N, h⟩ => ⟨N + 1, fun n hn => ?_⟩⟩
  all_goals
    obtain ⟨m, rfl⟩ : ∃ m, n = m + 1 := ⟨n - 1, by omega⟩
    have h := h (m + 1) (by omega)
  · exact (buildFragment_nul ..).1 h
  · exact (buildFragment_nul ..).2 h

/-- The condition after the NUL is dropped, and its argument is not missed. -/
example (L : GoLib) : beforeNul (lit "a = $1" ++ 0 :: lit " AND b = $2") = lit "a = $1" ∧
    ∃ s', BuildsTo L rootCtx (.frag (.mk (lit "a = $1" ++ 0 :: lit " AND b = $2") [.int 64 1] [] (lit "WHERE") []))
      (St.init question []) (.ok (lit "WHERE a = ?"), s') :=
  ⟨by decide, (run L 50 rootCtx (.build (.frag (.mk (lit "a = $1" ++ 0 :: lit " AND b = $2") [.int 64 1] [] (lit "WHERE") [])))
      (St.init question [])).2, buildsTo_of_run (n := 50) (by kernel_rfl) (by simp)⟩

end Props
end Sqlf
