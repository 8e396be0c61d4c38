import Verif.Model.Eval
import Verif.Spec.Denote
import Verif.Spec.Funcs
import Verif.Spec.History
/-!
# Outcomes of `BuildQuery`
-/

namespace Sqlf.Spec

/-- `BuildQuery` returns `o`: the evaluator stops, and gives `o` from some fuel on. -/
def Returns (L : GoLib) (b : Builder) (style : Style) (heap : List QB)
    (o : Out (Str × List Val)) : Prop :=
  o ≠ .oof ∧ ∃ N, ∀ n, N ≤ n → buildQuery L n b style heap = o

/-- `BuildQuery` returns `o` and leaves the query builders as in `heap'`. -/
def ReturnsLeaving (L : GoLib) (b : Builder) (style : Style) (heap : List QB) (o : Out (Str × List Val)) (heap' : List QB) : Prop :=
  o ≠ .oof ∧ ∃ N, ∀ n, N ≤ n → (buildQueryS L n b style heap).1 = o ∧ (buildQueryS L n b style heap).2.heap = heap'

/-- Building `b` with context `ctx` in state `s` ends with outcome `r.1` in state `r.2`. -/
def BuildsTo (L : GoLib) (ctx : Ctx) (b : Builder) (s : St) (r : Out Str × St) : Prop :=
  r.1 ≠ .oof ∧ ∃ N, ∀ n, N ≤ n → run L n ctx (.build b) s = r

/-- The name has its built-in meaning in the context. -/
def BuiltIn (L : GoLib) (ctx : Ctx) (name : Str) : Prop :=
  ∃ c, newContext L = some c ∧ ctx.fn name = c.fn name

/-- The context has the functions of a new context and no others. -/
def OnlyBuiltins (L : GoLib) (ctx : Ctx) : Prop :=
  ∃ c, newContext L = some c ∧ ∀ name, ctx.fn name = c.fn name

/-- Evaluating a task (building a builder, a clause, a function call) with context `ctx` in state
`s` ends with outcome `r.1` in state `r.2`. -/
def Evals (L : GoLib) (ctx : Ctx) (t : Task) (s : St) (r : Out Str × St) : Prop :=
  r.1 ≠ .oof ∧ ∃ N, ∀ n, N ≤ n → run L n ctx t s = r

/-- Items `i`, `i + 1`, … are evaluated one after the other, with texts `ts`. -/
inductive InOrder (item : Int → St → Str → St → Prop) : Int → St → List Str → St → Prop where
  | nil (i : Int) (s : St) : InOrder item i s [] s
  | cons {i : Int} {s s1 s2 : St} {t : Str} {ts : List Str} (h : item i s t s1)
      (hs : InOrder item (i + 1) s1 ts s2) : InOrder item i s (t :: ts) s2

/-- The call gives a number to a parameter that is not a number. -/
def NumberMisplaced (f : FuncInfo) (as : List CallArg) : Prop :=
  ∃ k a, as[k]? = some a ∧ ((∃ x, a = .num x) ∨ ∃ i, a = .int i) ∧
    ¬ ∃ kind name, paramType f k = some (.num kind name)

/-- A failure that is not `ErrInvalidIndex`. -/
def HardFailure : Out α → Prop
  | .ok _ => False
  | .err e => e.isInvalidIndex = false
  | .panic (.value _ invalidIndex) => invalidIndex = false
  | .panic _ => True
  | .oof => False

/-- Building `outer` in context `ctx` and state `s` comes to building `inner` in context `ctx'`
and state `s'`, which is nested in it at any depth: each fragment refers to the next one by
`#f` or `#fragment` in its template, after expressions that are built without error. -/
inductive Nests (L : GoLib) : Ctx → Builder → St → Ctx → Builder → St → Prop where
  | here (ctx : Ctx) (b : Builder) (s : St) : Nests L ctx b s ctx b s
  | column {ctx ctx' : Ctx} {t : Str} {f : Fragment} {s s' : St} {b : Builder}
      (h : Nests L ctx (.frag f) s ctx' b s') : Nests L ctx (.column t f) s ctx' b s'
  | frag {ctx ctx' : Ctx} {f : Fragment} {s s1 s' : St} {b c : Builder} {before after : List Expr}
      {name t : Str} {as : List CallArg} {i : Int}
      (hp : parse L f.raw = .ok (before ++ .call name as :: after))
      (hn : name = lit "f" ∨ name = lit "fragment") (hb : BuiltIn L ctx name)
      (hi : indexArg L as = some i) (hc : item? i f.frags = some c)
      (hbefore : Evals L (ctx.withFragment f) (.clause before)
        { s with usedA := [], usedF := [] } (.ok t, s1))
      (h : Nests L (ctx.withFragment f) c { s1 with usedF := (i - 1).toNat :: s1.usedF } ctx' b s') :
      Nests L ctx (.frag f) s ctx' b s'

/-- Values that cannot be arguments: the Dollar style needs values that can be map keys. -/
def cannotCommit (style : Style) (v : Val) : Bool := style = dollar && !v.hashable

/-- The meaning of a builder tree in a new context: outcome and committed values.  Templates
are read with the parser of the code, which C01–C12 are about. -/
def meaningOf (L : GoLib) (style : Style) (b : Builder) : Res Doc × List Val :=
  sem L (fun s => (parse L s).toOption) (cannotCommit style) b []

/-- The state has been reached from a new context of the given style by committing values. -/
def Reached (style : Style) (s : St) : Prop :=
  ∃ vs ps, commitAll (Store.new style) vs = some (ps, s.store)

end Sqlf.Spec
