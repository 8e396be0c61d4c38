import Verif.Spec.QueryDoc
import Verif.Spec.Shape
/-!
# Query builders that differ only in argument values
-/

namespace Sqlf.Spec

mutual
/-- Two builders that are equal except for their argument values, which are related by `R` position by
position.  User code on both sides does the same things with related values, and does not look at them. -/
def SameQ (R : Val → Val → Prop) : Builder → Builder → Prop
  | .frag f, .frag g => SameQF R f g
  | .column t f, .column u g => t = u ∧ SameQF R f g
  | .table t, .table u => t = u
  | .aliased n a, .aliased m b => n = m ∧ a = b
  | .nil, .nil => True
  | .nilFrag, .nilFrag => True
  | .nilColumn, .nilColumn => True
  | .columnNilFrag t, .columnNilFrag u => t = u
  | .nilQb, .nilQb => True
  | .qb r, .qb r' => r = r'
  | .custom p, .custom p' => SameCode R p p'
  | _, _ => False
termination_by structural b => b
def SameQF (R : Val → Val → Prop) : Fragment → Fragment → Prop
  | .mk raw args frags pre suf, .mk raw' args' frags' pre' suf' =>
    raw = raw' ∧ Pointwise R args args' ∧ SameQL R frags frags' ∧ pre = pre' ∧ suf = suf'
termination_by structural b => b
def SameQL (R : Val → Val → Prop) : List Builder → List Builder → Prop
  | [], [] => True
  | b :: bs, c :: cs => SameQ R b c ∧ SameQL R bs cs
  | _, _ => False
termination_by structural b => b
/-- … user code: the same steps, with related values.  What is done with the arguments committed so far is the
same for all lists of related values. -/
def SameCode (R : Val → Val → Prop) : Prog → Prog → Prop
  | .ret s, .ret s' => s = s'
  | .fail e, .fail e' => e = e'
  | .panic m b, .panic m' b' => m = m' ∧ b = b'
  | .commit v k, .commit v' k' => R v v' ∧ ∀ t, SameCode R (k t) (k' t)
  | .args k, .args k' => ∀ vs vs', Pointwise R vs vs' → SameCode R (k vs) (k' vs')
  | .build b k, .build b' k' => SameQ R b b' ∧ ∀ r, SameCode R (k r) (k' r)
  | .buildWith fm b k, .buildWith fm' b' k' => SameFuncs R fm fm' ∧ SameQ R b b' ∧ ∀ r, SameCode R (k r) (k' r)
  | .query style b k, .query style' b' k' => style = style' ∧ (style = dollar → Compat R) ∧ SameQ R b b' ∧ (∀ e, SameCode R (k (.error e)) (k' (.error e))) ∧
    ∀ t vs vs', Pointwise R vs vs' → SameCode R (k (.ok (t, vs))) (k' (.ok (t, vs')))
  | _, _ => False
termination_by structural b => b
/-- … functions -/
def SameFunc (R : Val → Val → Prop) : FuncVal → FuncVal → Prop
  | .notFunc, .notFunc => True
  | .func ins v outs body, .func ins' v' outs' body' => ins = ins' ∧ v = v' ∧ outs = outs' ∧ SameBody R body body'
  | _, _ => False
termination_by structural b => b
def SameBody (R : Val → Val → Prop) : Body → Body → Prop
  | .builtin b, .builtin b' => b = b'
  | .custom p, .custom p' => ∀ vs, SameCode R (p vs) (p' vs)
  | _, _ => False
termination_by structural b => b
def SameEntry (R : Val → Val → Prop) : Str × FuncVal → Str × FuncVal → Prop
  | (n, f), (n', f') => n = n' ∧ SameFunc R f f'
termination_by structural b => b
def SameFuncs (R : Val → Val → Prop) : List (Str × FuncVal) → List (Str × FuncVal) → Prop
  | [], [] => True
  | e :: es, e' :: es' => SameEntry R e e' ∧ SameFuncs R es es'
  | _, _ => False
termination_by structural b => b
end

/-- … CTEs -/
def SameCte (R : Val → Val → Prop) (c c' : Cte) : Prop :=
  c.name = c'.name ∧ c.deps = c'.deps ∧ SameQ R c.builder c'.builder

/-- … rows of the FROM clause -/
def SameRow (R : Val → Val → Prop) (t t' : FromTable) : Prop :=
  t.names = t'.names ∧ t.optional = t'.optional ∧ SameQ R (rowBuilder t) (rowBuilder t')

/-- … ordering expressions -/
def SameOrder (R : Val → Val → Prop) (o o' : OrderItem) : Prop := o.order = o'.order ∧ SameQ R o.column o'.column

/-- Two query builders that are equal except for their argument values, which are related by `R` position by
position. -/
structure SameQB (R : Val → Val → Prop) (b b' : QB) : Prop where
  ctes : Pointwise (SameCte R) b.ctes b'.ctes
  cells : Pointwise (SameRow R) b.cells b'.cells
  tables : b.tables = b'.tables
  tablesDict : b.tablesDict = b'.tablesDict
  selects : SameQF R b.selects b'.selects
  touches : SameQF R b.touches b'.touches
  conditions : SameQF R b.conditions b'.conditions
  orders : Pointwise (SameOrder R) b.orders b'.orders
  groupbys : SameQF R b.groupbys b'.groupbys
  distinct : b.distinct = b'.distinct
  limit : b.limit = b'.limit
  offset : b.offset = b'.offset
  unions : SameQL R b.unions b'.unions
  errors : b.errors = b'.errors

/-! ## Calls -/

/-- … fragments that may be nil -/
def SameOpt (R : Val → Val → Prop) : Option Fragment → Option Fragment → Prop
  | none, none => True
  | some f, some g => SameQF R f g
  | _, _ => False

/-- Lists given to `WhereIn` that have related elements, one by one. -/
def SameLists (R : Val → Val → Prop) (l l' : Val) : Prop :=
  ∃ vs vs', argsFlatted [l] = .ok vs ∧ argsFlatted [l'] = .ok vs' ∧ Pointwise R vs vs'

/-- The same call, except for argument values, which are related by `R` position by position. -/
def SameCall (R : Val → Val → Prop) : Call → Call → Prop
  | .distinct, .distinct => True
  | .select cs, .select cs' => SameQL R cs cs'
  | .limit n, .limit n' => n = n'
  | .offset n, .offset n' => n = n'
  | .groupBy cs, .groupBy cs' => SameQL R cs cs'
  | .orderBy c o, .orderBy c' o' => SameQ R c c' ∧ o = o'
  | .union bs, .union bs' => SameQL R bs bs'
  | .with_ n b ds, .with_ n' b' ds' => n = n' ∧ SameQ R b b' ∧ ds = ds'
  | .where_ f, .where_ f' => SameOpt R f f'
  | .where2 c op v, .where2 c' op' v' => SameQ R c c' ∧ op = op' ∧ R v v'
  | .whereIn c l, .whereIn c' l' => SameQ R c c' ∧ SameLists R l l'
  | .whereNotIn c l, .whereNotIn c' l' => SameQ R c c' ∧ SameLists R l l'
  | .from_ t, .from_ t' => t = t'
  | .innerJoin t on, .innerJoin t' on' => t = t' ∧ SameOpt R on on'
  | .leftJoin t on, .leftJoin t' on' => t = t' ∧ SameOpt R on on'
  | .leftJoinOptional t on, .leftJoinOptional t' on' => t = t' ∧ SameOpt R on on'
  | .rightJoin t on, .rightJoin t' on' => t = t' ∧ SameOpt R on on'
  | .fullJoin t on, .fullJoin t' on' => t = t' ∧ SameOpt R on on'
  | .crossJoin t, .crossJoin t' => t = t'
  | .debug, .debug => True
  | _, _ => False

/-- Query builders made by the same calls, except for argument values. -/
def ButForValues (R : Val → Val → Prop) (b b' : QB) : Prop :=
  ∃ cs cs', runCalls QB.new cs = .ok b ∧ runCalls QB.new cs' = .ok b' ∧ Pointwise (SameCall R) cs cs'

/-! ## Outcomes -/

/-- The same query text with related arguments, the same error, or the same panic. -/
def LikeOutcome (R : Val → Val → Prop) : Out (Str × List Val) → Out (Str × List Val) → Prop
  | .ok (q, as), .ok (q', as') => q = q' ∧ Pointwise R as as'
  | .err e, .err e' => e = e'
  | .panic p, .panic p' => p = p'
  | _, _ => False

/-- `BuildQuery` of one builder after the other, with the outcomes `os`; every build finds the query builders as
the one before left them. -/
inductive Series (L : GoLib) : List QB → List (Builder × Style) → List (Out (Str × List Val)) → Prop where
  | nil (heap : List QB) : Series L heap [] []
  | cons {heap : List QB} {b : Builder} {style : Style} {o : Out (Str × List Val)} {ctx : Ctx} {r : Out Str} {s : St}
      {jobs : List (Builder × Style)} {os : List (Out (Str × List Val))}
      (h : Returns L b style heap o) (hc : newContext L = some ctx) (hb : BuildsTo L ctx b (St.init style heap) (r, s))
      (hs : Series L s.heap jobs os) : Series L heap ((b, style) :: jobs) (o :: os)

/-! ## All values -/

/-- There is no user code in the builder, and every argument value in it satisfies `P`. -/
def Over (P : Val → Prop) (b : Builder) : Prop := NoCode b ∧ AllVals P b

/-- There is no user code in what is given to the call, and every argument value in it satisfies `P`. -/
def CallOver (P : Val → Prop) : Call → Prop
  | .select cs => ∀ c ∈ cs, Over P c
  | .groupBy cs => ∀ c ∈ cs, Over P c
  | .orderBy c _ => Over P c
  | .union bs => ∀ b ∈ bs, Over P b
  | .with_ _ b _ => Over P b
  | .where_ f => ∀ g, f = some g → Over P (.frag g)
  | .where2 c _ v => Over P c ∧ P v
  | .whereIn c l => Over P c ∧ ∃ vs, argsFlatted [l] = .ok vs ∧ ∀ v ∈ vs, P v
  | .whereNotIn c l => Over P c ∧ ∃ vs, argsFlatted [l] = .ok vs ∧ ∀ v ∈ vs, P v
  | .innerJoin _ on => ∀ g, on = some g → Over P (.frag g)
  | .leftJoin _ on => ∀ g, on = some g → Over P (.frag g)
  | .leftJoinOptional _ on => ∀ g, on = some g → Over P (.frag g)
  | .rightJoin _ on => ∀ g, on = some g → Over P (.frag g)
  | .fullJoin _ on => ∀ g, on = some g → Over P (.frag g)
  | _ => True

end Sqlf.Spec
