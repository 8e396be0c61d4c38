import Verif.Model.Memory
import Verif.Spec.Sqlb
import Verif.Spec.Shape
/-!
# What pointers to fragments stand for, and programs with copies in place of pointers
-/

namespace Sqlf.Spec

/-! ## Slices -/

/-- The contents of all fragments: what their slices hold now. -/
def contents (m : SMem) : List PFragment :=
  m.objs.map fun o => ⟨o.raw, o.args.read m.vals, o.frags.read m.blds, o.pre, o.suf⟩

/-- A slice in bounds of its array. -/
def InBounds (A : List (List α)) (s : Slice) : Prop := s.len ≤ s.cap ∧ (0 < s.cap → ∃ a, A[s.arr]? = some a ∧ s.off + s.cap ≤ a.length)

/-- The spare room of the slice `s`, into which `append` writes, is no part of the slice `s'`. -/
def SpareFree (s s' : Slice) : Prop :=
  s.arr = s'.arr → s.len < s.cap → 0 < s'.cap → s'.off + s'.cap ≤ s.off + s.len ∨ s.off + s.cap ≤ s'.off

/-- `xs...` arguments that do not share spare room with the slices `ss` of the fragments: listed ones, and slices
such that neither has spare room in the other. -/
def NotShared (A : List (List α)) (ss : List Slice) : Given α → Prop
  | .listed _ => True
  | .spread s => InBounds A s ∧ ∀ s' ∈ ss, SpareFree s s' ∧ SpareFree s' s

/-- The calls of which all `xs...` arguments are such. -/
def Careful (m : SMem) : SOp → Prop
  | .new _ as fs => NotShared m.vals (m.objs.map (·.args)) as ∧ NotShared m.blds (m.objs.map (·.frags)) fs
  | .withPrefix _ _ => True
  | .withSuffix _ _ => True
  | .withArgs _ g => NotShared m.vals (m.objs.map (·.args)) g
  | .withFragments _ g => NotShared m.blds (m.objs.map (·.frags)) g
  | .appendArgs _ _ => True
  | .appendFragments _ _ => True

/-- The memory after some history of such calls, in which the user may make arrays for slices. -/
inductive ReachedMem (grow : Nat → Nat) : SMem → Prop
  | start : ReachedMem grow ⟨[], [], []⟩
  | array {m : SMem} (xs : List Val) : ReachedMem grow m → ReachedMem grow { m with vals := m.vals ++ [xs] }
  | arrayB {m : SMem} (xs : List PBuilder) : ReachedMem grow m → ReachedMem grow { m with blds := m.blds ++ [xs] }
  | call {m : SMem} {o : SOp} : ReachedMem grow m → Careful m o → ReachedMem grow (o.run grow m)

/-- The same call with the elements of its variadic arguments listed. -/
def elementsOf (m : SMem) : SOp → FOp
  | .new raw as fs => .new raw (as.elems m.vals) (fs.elems m.blds)
  | .withPrefix p s => .withPrefix p s
  | .withSuffix p s => .withSuffix p s
  | .withArgs p g => .withArgs p (g.elems m.vals)
  | .withFragments p g => .withFragments p (g.elems m.blds)
  | .appendArgs p g => .appendArgs p (g.elems m.vals)
  | .appendFragments p g => .appendFragments p (g.elems m.blds)

/-- A call with listed arguments. -/
def asListed : FOp → SOp
  | .new raw as fs => .new raw (.listed as) (.listed fs)
  | .withPrefix p s => .withPrefix p s
  | .withSuffix p s => .withSuffix p s
  | .withArgs p xs => .withArgs p (.listed xs)
  | .withFragments p xs => .withFragments p (.listed xs)
  | .appendArgs p xs => .appendArgs p (.listed xs)
  | .appendFragments p xs => .appendFragments p (.listed xs)

/-- The fragment that a call changes. -/
def changed : FOp → Option Nat
  | .new _ _ _ => none
  | .withPrefix p _ => some p
  | .withSuffix p _ => some p
  | .withArgs p _ => some p
  | .withFragments p _ => some p
  | .appendArgs p _ => some p
  | .appendFragments p _ => some p

/-! ## Pointers -/

mutual
/-- What a builder with pointers stands for at a time when the fragments are `objs`. -/
inductive MeansB (objs : List PFragment) : PBuilder → Builder → Prop
  | plain (b : Builder) : MeansB objs (.plain b) b
  | ptr {p f} : MeansF objs p f → MeansB objs (.ptr p) (.frag f)
  | column {t p f} : MeansF objs p f → MeansB objs (.column t p) (.column t f)
  | cond {raw args c b} : MeansB objs c b → MeansB objs (.cond raw args c) (.frag (.mk raw args [b] [] []))
/-- What a pointer to a fragment stands for. -/
inductive MeansF (objs : List PFragment) : Nat → Fragment → Prop
  | mk {p o bs} : objs[p]? = some o → MeansL objs o.frags bs → MeansF objs p (.mk o.raw o.args bs o.pre o.suf)
/-- What a list of builders stands for. -/
inductive MeansL (objs : List PFragment) : List PBuilder → List Builder → Prop
  | nil : MeansL objs [] []
  | cons {c b cs bs} : MeansB objs c b → MeansL objs cs bs → MeansL objs (c :: cs) (b :: bs)
end

/-- What the fragment of a table stands for. -/
inductive MeansT (objs : List PFragment) : PTable → Option Fragment → Prop
  | none : MeansT objs .none .none
  | from_ (text : Str) : MeansT objs (.from_ text) (some (.F text))
  | join {text p f} : MeansF objs p f → MeansT objs (.join text p) (some (.Ff text [.frag f]))

/-- The query builder that a query builder with pointers stands for. -/
structure MeansQ (objs : List PFragment) (b : PQB) (q : QB) : Prop where
  ctes : Pointwise (fun (c : Str × PBuilder × List Str) (d : Cte) => c.1 = d.name ∧ c.2.2 = d.deps ∧ MeansB objs c.2.1 d.builder) b.ctes q.ctes
  cells : Pointwise (fun (c : PFromTable) (d : FromTable) => c.names = d.names ∧ c.optional = d.optional ∧ MeansT objs c.fragment d.fragment)
    b.cells q.cells
  tables : b.tables = q.tables
  tablesDict : b.tablesDict = q.tablesDict
  selects : ∃ bs, MeansL objs b.selects bs ∧ q.selects = QB.new.selects.withFragments bs
  touches : q.touches = QB.new.touches
  conditions : ∃ bs, MeansL objs b.conditions bs ∧ q.conditions = QB.new.conditions.withFragments bs
  orders : Pointwise (fun (c : PBuilder × Nat) (d : OrderItem) => MeansB objs c.1 d.column ∧ c.2 = d.order) b.orders q.orders
  groupbys : ∃ bs, MeansL objs b.groupbys bs ∧ q.groupbys = QB.new.groupbys.withFragments bs
  distinct : b.distinct = q.distinct
  limit : b.limit = q.limit
  offset : b.offset = q.offset
  unions : MeansL objs b.unions q.unions
  errors : b.errors = q.errors
  debug : b.debug = q.debug

/-! ## The same program with copies in place of pointers -/

/-- Fragments and query builders as values. -/
structure VMem where
  frags : List Fragment
  qbs : List QB

/-- The builder with copies of the fragments as they are now; `none` for pointers to nothing. -/
def copyB (env : List Fragment) : PBuilder → Option Builder
  | .plain b => some b
  | .ptr p => env[p]?.map .frag
  | .column t p => env[p]?.map (.column t)
  | .cond raw args c => (copyB env c).map fun b => .frag (.mk raw args [b] [] [])

/-- The same for all builders of a list. -/
def copyL (env : List Fragment) : List PBuilder → Option (List Builder)
  | [] => some []
  | c :: cs =>
    match copyB env c, copyL env cs with
    | some b, some bs => some (b :: bs)
    | _, _ => none

/-- The call of the query builder with copies of the fragments. -/
def copyCall (env : List Fragment) : PCall → Option Call
  | .distinct => some .distinct
  | .select cs => (copyL env cs).map .select
  | .limit n => some (.limit n)
  | .offset n => some (.offset n)
  | .groupBy cs => (copyL env cs).map .groupBy
  | .orderBy c o => (copyB env c).map (.orderBy · o)
  | .union bs => (copyL env bs).map .union
  | .with_ n c ds => (copyB env c).map (.with_ n · ds)
  | .where_ none => some (.where_ none)
  | .where_ (some p) => env[p]?.map (.where_ <| some ·)
  | .where2 c op v => (copyB env c).map (.where2 · op v)
  | .whereIn c v => (copyB env c).map (.whereIn · v)
  | .whereNotIn c v => (copyB env c).map (.whereNotIn · v)
  | .from_ t => some (.from_ t)
  | .join k t none => some (joinCall k t none)
  | .join k t (some p) => env[p]?.map fun f => joinCall k t (some f)
  | .crossJoin t => some (.crossJoin t)
  | .debug => some .debug
where
  /-- The join method of this kind. -/
  joinCall : JoinKind → TableAliased → Option Fragment → Call
  | .inner => .innerJoin
  | .left => .leftJoin
  | .leftOptional => .leftJoinOptional
  | .right => .rightJoin
  | .full => .fullJoin

/-- Making and changing fragments, with copies. -/
def copyOp (env : List Fragment) : FOp → Option (List Fragment)
  | .new raw as fs => (copyL env fs).map fun bs => env ++ [.mk raw as bs [] []]
  | .withPrefix p s => some (env.modify p (·.withPrefix s))
  | .withSuffix p s => some (env.modify p (·.withSuffix s))
  | .withArgs p xs => some (env.modify p (·.withArgs xs))
  | .withFragments p cs => (copyL env cs).map fun bs => env.modify p (·.withFragments bs)
  | .appendArgs p xs => some (env.modify p (·.appendArgs xs))
  | .appendFragments p cs => (copyL env cs).map fun bs => env.modify p (·.appendFragments bs)

/-- The ON fragment that a call changes. -/
def onFragment : PCall → Option Nat
  | .join _ t on => if t.name = [] then none else on
  | _ => none

/-- Execute a statement with copies.  The only effect on a fragment of the caller is that joins set the
prefix of the ON fragment.  `none`: a pointer to nothing, which cannot be written in Go. -/
def copyStmt (m : VMem) : Stmt → Option (Out VMem)
  | .frag o => (copyOp m.frags o).map fun env => .ok { m with frags := env }
  | .newQB => some (.ok { m with qbs := m.qbs ++ [.new] })
  | .call r c =>
    match m.qbs[r]?, copyCall m.frags c with
    | some q, some c' => some <| match c'.apply q with
      | .ok q' => .ok ⟨match onFragment c with
        | some p => m.frags.modify p (·.withPrefix (lit "ON"))
        | none => m.frags, m.qbs.set r q'⟩
      | .err e => .err e
      | .panic p => .panic p
      | .oof => .oof
    | _, _ => none

/-- Execute all statements with copies. -/
def copyStmts : VMem → List Stmt → Option (Out VMem)
  | m, [] => some (.ok m)
  | m, c :: cs =>
    match copyStmt m c with
    | some (.ok m) => copyStmts m cs
    | o => o

/-! ## The rule: no fragment is changed after it was used -/

/-- The fragments a builder refers to. -/
def pointersB : PBuilder → List Nat
  | .plain _ => []
  | .ptr p => [p]
  | .column _ p => [p]
  | .cond _ _ c => pointersB c

/-- The fragments the builders of a list refer to. -/
def pointersL (cs : List PBuilder) : List Nat := cs.flatMap pointersB

/-- The fragments that a call makes part of something else. -/
def usedByCall : PCall → List Nat
  | .select cs => pointersL cs
  | .groupBy cs => pointersL cs
  | .orderBy c _ => pointersB c
  | .union bs => pointersL bs
  | .with_ _ c _ => pointersB c
  | .where_ p => p.toList
  | .where2 c _ _ => pointersB c
  | .whereIn c _ => pointersB c
  | .whereNotIn c _ => pointersB c
  | .join _ _ on => on.toList
  | _ => []

/-- The fragments that a call makes part of another fragment. -/
def usedByOp : FOp → List Nat
  | .new _ _ fs => pointersL fs
  | .withFragments _ cs => pointersL cs
  | .appendFragments _ cs => pointersL cs
  | _ => []

/-- The fragments that a statement makes part of something else. -/
def usedBy : Stmt → List Nat
  | .frag o => usedByOp o
  | .newQB => []
  | .call _ c => usedByCall c

/-- A statement that changes no fragment that is part of something else.  A join may set the prefix of a
fragment to what it is. -/
def Allowed (m : VMem) (used : List Nat) : Stmt → Prop
  | .frag o => ∀ p, changed o = some p → p ∉ used ∧ p ∉ usedByOp o
  | .newQB => True
  | .call _ c => ∀ p, onFragment c = some p → p ∈ used → ∀ f, m.frags[p]? = some f → f.pre = lit "ON"

/-- The outcome of a program with pointers agrees with that of a program with copies. -/
def Agree : Out PMem → Out VMem → Prop
  | .ok m, .ok v => m.objs.length = v.frags.length ∧ (∀ (p : Nat) (f : Fragment), v.frags[p]? = some f → MeansF m.objs p f) ∧
      Pointwise (MeansQ m.objs) m.qbs v.qbs
  | .err e, .err e' => e = e'
  | .panic p, .panic p' => p = p'
  | .oof, .oof => True
  | _, _ => False

/-- All statements are such. -/
def Disciplined : VMem → List Nat → List Stmt → Prop
  | _, _, [] => True
  | m, used, c :: cs => Allowed m used c ∧ ∀ m', copyStmt m c = some (.ok m') → Disciplined m' (used ++ usedBy c) cs

end Sqlf.Spec
