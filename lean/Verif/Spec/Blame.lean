import Verif.Spec.Query
/-!
# Why a build fails

A build that fails with an error says where it failed and why.  `Explains L H ctx b e` reads the error `e` of a
build of `b` in context `ctx`, with the query builders `H`, from the outside in: `wrap name e'` is an error that
is wrapped with the template
of a fragment, the name of a function, of a CTE or of a table; what is inside is the reason.  User code answers
for its own errors.
-/

namespace Sqlf.Spec

/-- The functions of the context have been registered: they have the name under which they are found, and are
built-in functions or user code.  (A variadic Go function has a last parameter, which is not the context.) -/
def Registered (L : GoLib) (ctx : Ctx) : Prop := ∀ name g, ctx.fn name = some g →
  g.name = name ∧ (BuiltIn L ctx name ∨ ∃ p, g.body = .custom p) ∧
  (g.variadic = true → g.ins ≠ [] ∧ g.ins ≠ [.context])

/-- The query builders are those of `H`, except for what builds change in them: the keyword of the SELECT
clause, the columns added for the order, and errors. -/
def During (H : List QB) (s : St) : Prop := s.heap.length = H.length ∧
  ∀ (r : Nat) (b b' : QB), H[r]? = some b → s.heap[r]? = some b' → ∃ keyword ts es,
    b' = { b with selects := b.selects.withPrefix keyword, touches := b.touches.appendFragments ts, errors := es }

/-- The fragment of a list clause of a query builder. -/
inductive ClauseOf (b : QB) : Fragment → Prop where
  | where_ : ClauseOf b b.conditions
  | groupBy : ClauseOf b b.groupbys
  | orderBy : ClauseOf b (.mk (lit "#join('#fragment', ', ')") [] (orderBuilders b.distinct 1 b.orders)
      (lit "ORDER BY") [])
  | select (keyword : Str) : ClauseOf b (b.selects.withPrefix keyword)
  | touches (ts : List Builder) (h : ∀ t ∈ ts, OrderTouch b.distinct b.orders t) :
      ClauseOf b (b.touches.appendFragments ts)

mutual
/-- The error of building `b`. -/
inductive Explains (L : GoLib) (H : List QB) : Ctx → Builder → Err → Prop where
  /-- the template cannot be parsed -/
  | template {ctx : Ctx} {f : Fragment} {e : PErr} (h : parse L f.raw = .error e) :
      Explains L H ctx (.frag f) (.wrap f.raw (.parse e))
  /-- something in the template cannot be evaluated -/
  | inside {ctx : Ctx} {f : Fragment} {es : List Expr} {x : Expr} {e : Err} (h : parse L f.raw = .ok es)
      (hx : x ∈ es) (he : ExplainsExpr L H (ctx.withFragment f) x e) : Explains L H ctx (.frag f) (.wrap f.raw e)
  /-- an argument or a fragment has not been used (C24 says when this is so) -/
  | unused {ctx : Ctx} {f : Fragment} {i j : Option Nat} (h : i ≠ none ∨ j ≠ none)
      (hi : ∀ k, i = some k → 1 ≤ k ∧ k ≤ f.args.length) (hj : ∀ k, j = some k → 1 ≤ k ∧ k ≤ f.frags.length) :
      Explains L H ctx (.frag f) (.wrap f.raw (.unused i j))
  | column {ctx : Ctx} {t : Str} {f : Fragment} {e : Err} (h : Explains L H ctx (.frag f) e) :
      Explains L H ctx (.column t f) e
  | query {ctx : Ctx} {r : Nat} {b : QB} {e : Err} (hr : H[r]? = some b)
      (h : ExplainsQuery L H ctx b e) : Explains L H ctx (.qb r) e
  /-- user code -/
  | code {ctx : Ctx} {p : Prog} {e : Err} : Explains L H ctx (.custom p) e
/-- The error of an expression of a template. -/
inductive ExplainsExpr (L : GoLib) (H : List QB) : Ctx → Expr → Err → Prop where
  /-- there is no such argument -/
  | bindVar {ctx : Ctx} {fr : Frame} {style : Style} {i : Int} (hc : ctx.frame = some fr)
      (h : item? i fr.args = none) : ExplainsExpr L H ctx (.bindVar style i) (.bindVarIndex i)
  /-- a function without arguments outside of a `#join` template -/
  | notCalled {ctx : Ctx} {name : Str} : ExplainsExpr L H ctx (.func name) (.forgotCall name)
  | undefined {ctx : Ctx} {name : Str} {as : List CallArg} (h : ctx.fn name = none) :
      ExplainsExpr L H ctx (.call name as) (.undefinedFunc name)
  /-- wrong number of arguments -/
  | count {ctx : Ctx} {name : Str} {as : List CallArg} {g : FuncInfo} (hg : ctx.fn name = some g)
      (h : ¬ countFits g as.length) : ExplainsExpr L H ctx (.call name as) (.wrongArgCount name)
  /-- a literal of a wrong type -/
  | literal {ctx : Ctx} {name : Str} {as : List CallArg} {g : FuncInfo} {k : Nat} {t : GoType} {a : CallArg}
      (hg : ctx.fn name = some g) (ha : as[k]? = some a) (ht : paramType g k = some t)
      (h : literalFits t a = false) : ExplainsExpr L H ctx (.call name as) (.argType name)
  /-- a user's function -/
  | code {ctx : Ctx} {name : Str} {as : List CallArg} {g : FuncInfo} {p : List ArgVal → Prog} {e : Err}
      (hg : ctx.fn name = some g) (hp : g.body = .custom p) : ExplainsExpr L H ctx (.call name as) (.wrap name e)
  /-- `#arg` of an argument that does not exist -/
  | noArg {ctx : Ctx} {fr : Frame} {as : List CallArg} {i : Int} (hc : ctx.frame = some fr)
      (hb : BuiltIn L ctx (lit "arg")) (hi : indexArg L as = some i) (h : item? i fr.args = none) :
      ExplainsExpr L H ctx (.call (lit "arg") as) (.wrap (lit "arg") (.invalidIndex i))
  /-- `#arg` of an argument that cannot be a map key -/
  | badArg {ctx : Ctx} {fr : Frame} {as : List CallArg} {i : Int} {v : Val} (hc : ctx.frame = some fr)
      (hb : BuiltIn L ctx (lit "arg")) (hi : indexArg L as = some i) (h : item? i fr.args = some v)
      (hv : v.hashable = false) :
      ExplainsExpr L H ctx (.call (lit "arg") as) (.wrap (lit "arg") (.recovered .unhashableKey))
  /-- `#f` or `#fragment` of a fragment that does not exist -/
  | noFragment {ctx : Ctx} {fr : Frame} {name : Str} {as : List CallArg} {i : Int} (hc : ctx.frame = some fr)
      (hn : name = lit "f" ∨ name = lit "fragment") (hb : BuiltIn L ctx name) (hi : indexArg L as = some i)
      (h : item? i fr.frags = none) : ExplainsExpr L H ctx (.call name as) (.wrap name (.invalidIndex i))
  /-- `#f` or `#fragment` of a fragment that cannot be built -/
  | fragment {ctx : Ctx} {fr : Frame} {name : Str} {as : List CallArg} {i : Int} {c : Builder} {s s' : St} {e : Err}
      (hc : ctx.frame = some fr) (hn : name = lit "f" ∨ name = lit "fragment") (hb : BuiltIn L ctx name)
      (hi : indexArg L as = some i) (h : item? i fr.frags = some c)
      (hs : During H s) (hf : BuildsTo L ctx c s (.err e, s'))
      (he : Explains L H ctx c e) : ExplainsExpr L H ctx (.call name as) (.wrap name e)
  /-- `#f` or `#fragment` of a fragment that panics -/
  | fragmentPanics {ctx : Ctx} {fr : Frame} {name : Str} {as : List CallArg} {i : Int} {c : Builder} {s s' : St}
      {p : Panic} (hc : ctx.frame = some fr) (hn : name = lit "f" ∨ name = lit "fragment")
      (hb : BuiltIn L ctx name) (hi : indexArg L as = some i) (h : item? i fr.frags = some c)
      (hs : During H s) (hf : BuildsTo L ctx c s (.panic p, s')) :
      ExplainsExpr L H ctx (.call name as) (.wrap name p.toErr)
  /-- `#join` -/
  | join {ctx : Ctx} {as : List CallArg} {tm sep : Str} {is : List Int} {e : Err} (hb : BuiltIn L ctx (lit "join"))
      (ha : joinArgs L as = .ok (tm, sep, is)) (h : ExplainsJoin L H ctx tm is e) :
      ExplainsExpr L H ctx (.call (lit "join") as) (.wrap (lit "join") e)
/-- The error of a `#join` of the template `tm`, with the indexes `is`. -/
inductive ExplainsJoin (L : GoLib) (H : List QB) : Ctx → Str → List Int → Err → Prop where
  | tooMany {ctx : Ctx} {tm : Str} {is : List Int} (h : 2 < is.length) : ExplainsJoin L H ctx tm is .joinTooManyArgs
  | range {ctx : Ctx} {tm : Str} {is : List Int} (h : 0 < is.getD 1 0) (h' : is.getD 1 0 < is.getD 0 0) :
      ExplainsJoin L H ctx tm is .joinRange
  | template {ctx : Ctx} {tm : Str} {is : List Int} {e : PErr} (h : parse L tm = .error e) :
      ExplainsJoin L H ctx tm is (.wrap tm (.parse e))
  /-- the template has no function without arguments -/
  | noFunc {ctx : Ctx} {tm : Str} {is : List Int} {est : List Expr} (h : parse L tm = .ok est)
      (hn : bareFuncs est = []) : ExplainsJoin L H ctx tm is .joinNoFunc
  | unknown {ctx : Ctx} {tm : Str} {is : List Int} {est : List Expr} {name : Str} (h : parse L tm = .ok est)
      (hn : name ∈ bareFuncs est) (hf : ctx.fn name = none) : ExplainsJoin L H ctx tm is (.joinUnknownFunc name)
  /-- a function that does not take an index, or does not report index 0 as invalid -/
  | incompatible {ctx : Ctx} {tm : Str} {is : List Int} {est : List Expr} {name : Str} {g : FuncInfo}
      (h : parse L tm = .ok est) (hn : name ∈ bareFuncs est) (hg : ctx.fn name = some g)
      (hi : joinSignatureOk g = true → ∃ s s' o, During H s ∧
        Evals L (newEmptyContext.withNilFragment) (.call g [.int 0]) s (o, s') ∧
        ¬ IndexFailure o) :
      ExplainsJoin L H ctx tm is (.joinIncompatible name)
  /-- an item cannot be evaluated -/
  | item {ctx : Ctx} {tm : Str} {is : List Int} {est : List Expr} {k : Int} {x : Expr} {e : Err}
      (h : parse L tm = .ok est) (hk : 1 ≤ k) (hx : x ∈ atIndex k est) (he : ExplainsExpr L H ctx x e) :
      ExplainsJoin L H ctx tm is e
  /-- an item panics -/
  | itemPanics {ctx : Ctx} {tm : Str} {is : List Int} {est : List Expr} {k : Int} {s s' : St} {p : Panic}
      (h : parse L tm = .ok est) (hk : 1 ≤ k) (hs : During H s)
      (hp : Evals L ctx (.clause (atIndex k est)) s (.panic p, s')) :
      ExplainsJoin L H ctx tm is p.toErr
/-- The error of a query builder. -/
inductive ExplainsQuery (L : GoLib) (H : List QB) : Ctx → QB → Err → Prop where
  /-- errors have been recorded, by calls or (invalid orders) by builds -/
  | recorded {ctx : Ctx} {b : QB} {es : List Err} (hne : es ≠ [])
      (h : ∀ e ∈ es, e ∈ b.errors ∨ ∃ o ∈ b.orders, orderText o.order = none ∧ e = .builder (lit "invalid order: " ++ natDigits o.order)) :
      ExplainsQuery L H ctx b (anyError es)
  /-- a table is referred to that is not in the query -/
  | undefined {ctx : Ctx} {b : QB} {t : Str} (h : resolve b t = none) : ExplainsQuery L H ctx b (.fromUndefined t)
  | cte {ctx : Ctx} {b : QB} {c : Cte} {s s' : St} {e : Err} (hc : c ∈ b.ctes)
      (hs : During H s) (hb : BuildsTo L ctx c.builder s (.err e, s')) (he : Explains L H ctx c.builder e) :
      ExplainsQuery L H ctx b (.wrap c.name e)
  | table {ctx : Ctx} {b : QB} {r : FromTable} {s s' : St} {e : Err} (hr : r ∈ b.tableList)
      (hs : During H s) (hb : BuildsTo L ctx (rowBuilder r) s (.err e, s')) (he : Explains L H ctx (rowBuilder r) e) :
      ExplainsQuery L H ctx b (.wrap r.names.name e)
  | clause {ctx : Ctx} {b : QB} {f : Fragment} {s s' : St} {e : Err} (hf : ClauseOf b f)
      (hs : During H s) (hb : BuildsTo L ctx (.frag f) s (.err e, s')) (he : Explains L H ctx (.frag f) e) :
      ExplainsQuery L H ctx b e
  | union {ctx : Ctx} {b : QB} {u : Builder} {s s' : St} {e : Err} (hu : u ∈ b.unions)
      (hs : During H s) (hb : BuildsTo L ctx u s (.err e, s')) (he : Explains L H ctx u e) : ExplainsQuery L H ctx b e
  /-- nothing is selected -/
  | noColumns {ctx : Ctx} {b : QB} {keyword : Str} {s s' : St}
      (hs : During H s) (hb : BuildsTo L ctx (.frag (b.selects.withPrefix keyword)) s (.ok [], s')) :
      ExplainsQuery L H ctx b .noColumns
end

end Sqlf.Spec
