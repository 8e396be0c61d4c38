import Verif.Spec.Outcome
import Verif.Spec.Sqlb
import Verif.Spec.Shape
/-!
# Replacing parts of builders by others
-/

namespace Sqlf.Spec

/-- `c` can be used in place of `b`: in every context and in every state it builds to what `b` builds to — the same
text, error or panic, with the same effects — and it refers to the same tables. -/
structure Replaces (L : GoLib) (b c : Builder) : Prop where
  builds : ∀ ctx s r, BuildsTo L ctx b s r → BuildsTo L ctx c s r
  tables : tableRefs b = tableRefs c
  nils : noNil b = noNil c

mutual
/-- Two builders that are equal except that some builders `b` in one of them are replaced by builders `c` with
`E b c` in the other, anywhere: in fragments, below columns, and in what user code builds. -/
inductive Swapped (E : Builder → Builder → Prop) : Builder → Builder → Prop where
  | swap {b c : Builder} (h : E b c) : Swapped E b c
  | frag {f g : Fragment} (h : SwappedF E f g) : Swapped E (.frag f) (.frag g)
  | column {t : Str} {f g : Fragment} (h : SwappedF E f g) : Swapped E (.column t f) (.column t g)
  | custom {p q : Prog} (h : SwappedCode E p q) : Swapped E (.custom p) (.custom q)
  | nil : Swapped E .nil .nil
  | nilFrag : Swapped E .nilFrag .nilFrag
  | nilColumn : Swapped E .nilColumn .nilColumn
  | columnNilFrag (t : Str) : Swapped E (.columnNilFrag t) (.columnNilFrag t)
  | table (t : Str) : Swapped E (.table t) (.table t)
  | aliased (n a : Str) : Swapped E (.aliased n a) (.aliased n a)
  | nilQb : Swapped E .nilQb .nilQb
  | qb (r : Nat) : Swapped E (.qb r) (.qb r)
inductive SwappedF (E : Builder → Builder → Prop) : Fragment → Fragment → Prop where
  | mk {raw : Str} {args : List Val} {fs gs : List Builder} {pre suf : Str} (h : SwappedL E fs gs) :
      SwappedF E (.mk raw args fs pre suf) (.mk raw args gs pre suf)
inductive SwappedL (E : Builder → Builder → Prop) : List Builder → List Builder → Prop where
  | nil : SwappedL E [] []
  | cons {b c : Builder} {bs cs : List Builder} (h : Swapped E b c) (hs : SwappedL E bs cs) : SwappedL E (b :: bs) (c :: cs)
/-- … user code -/
inductive SwappedCode (E : Builder → Builder → Prop) : Prog → Prog → Prop where
  | ret (s : Str) : SwappedCode E (.ret s) (.ret s)
  | fail (e : Err) : SwappedCode E (.fail e) (.fail e)
  | panic (m : Str) (b : Bool) : SwappedCode E (.panic m b) (.panic m b)
  | commit (v : Val) {k k' : Str → Prog} (h : ∀ t, SwappedCode E (k t) (k' t)) : SwappedCode E (.commit v k) (.commit v k')
  | args {k k' : List Val → Prog} (h : ∀ vs, SwappedCode E (k vs) (k' vs)) : SwappedCode E (.args k) (.args k')
  | build {b c : Builder} {k k' : Except Err Str → Prog} (hb : Swapped E b c) (h : ∀ r, SwappedCode E (k r) (k' r)) :
      SwappedCode E (.build b k) (.build c k')
  | buildWith {fm fm' : List (Str × FuncVal)} {b c : Builder} {k k' : Except Err Str → Prog} (hf : SwappedFuncs E fm fm')
      (hb : Swapped E b c) (h : ∀ r, SwappedCode E (k r) (k' r)) : SwappedCode E (.buildWith fm b k) (.buildWith fm' c k')
  | query (style : Style) {b c : Builder} {k k' : Except Err (Str × List Val) → Prog} (hb : Swapped E b c)
      (h : ∀ r, SwappedCode E (k r) (k' r)) : SwappedCode E (.query style b k) (.query style c k')
/-- … functions -/
inductive SwappedFunc (E : Builder → Builder → Prop) : FuncVal → FuncVal → Prop where
  | notFunc : SwappedFunc E .notFunc .notFunc
  | func (ins : List GoType) (variadic : Bool) (outs : List GoType) {body body' : Body} (h : SwappedBody E body body') :
      SwappedFunc E (.func ins variadic outs body) (.func ins variadic outs body')
inductive SwappedBody (E : Builder → Builder → Prop) : Body → Body → Prop where
  | builtin (b : Builtin) : SwappedBody E (.builtin b) (.builtin b)
  | custom {p q : List ArgVal → Prog} (h : ∀ vs, SwappedCode E (p vs) (q vs)) : SwappedBody E (.custom p) (.custom q)
inductive SwappedFuncs (E : Builder → Builder → Prop) : List (Str × FuncVal) → List (Str × FuncVal) → Prop where
  | nil : SwappedFuncs E [] []
  | cons {n : Str} {f g : FuncVal} {fs gs : List (Str × FuncVal)} (h : SwappedFunc E f g) (hs : SwappedFuncs E fs gs) :
      SwappedFuncs E ((n, f) :: fs) ((n, g) :: gs)
end

/-- … fragments that may be nil -/
inductive SwappedOpt (E : Builder → Builder → Prop) : Option Fragment → Option Fragment → Prop where
  | none : SwappedOpt E none none
  | some {f g : Fragment} (h : SwappedF E f g) : SwappedOpt E (some f) (some g)

/-- … calls of the methods of a query builder: the same call, with such builders. -/
inductive SwappedCall (E : Builder → Builder → Prop) : Call → Call → Prop where
  | same (c : Call) : SwappedCall E c c
  | select {cs cs' : List Builder} (h : SwappedL E cs cs') : SwappedCall E (.select cs) (.select cs')
  | groupBy {cs cs' : List Builder} (h : SwappedL E cs cs') : SwappedCall E (.groupBy cs) (.groupBy cs')
  | orderBy {c c' : Builder} (o : Nat) (h : Swapped E c c') : SwappedCall E (.orderBy c o) (.orderBy c' o)
  | union {bs bs' : List Builder} (h : SwappedL E bs bs') : SwappedCall E (.union bs) (.union bs')
  | with_ (n : Str) (ds : List Str) {b b' : Builder} (h : Swapped E b b') : SwappedCall E (.with_ n b ds) (.with_ n b' ds)
  | where_ {f f' : Option Fragment} (h : SwappedOpt E f f') : SwappedCall E (.where_ f) (.where_ f')
  | where2 (op : Str) (v : Val) {c c' : Builder} (h : Swapped E c c') : SwappedCall E (.where2 c op v) (.where2 c' op v)
  | whereIn (l : Val) {c c' : Builder} (h : Swapped E c c') : SwappedCall E (.whereIn c l) (.whereIn c' l)
  | whereNotIn (l : Val) {c c' : Builder} (h : Swapped E c c') : SwappedCall E (.whereNotIn c l) (.whereNotIn c' l)
  | innerJoin (t : TableAliased) {on on' : Option Fragment} (h : SwappedOpt E on on') :
      SwappedCall E (.innerJoin t on) (.innerJoin t on')
  | leftJoin (t : TableAliased) {on on' : Option Fragment} (h : SwappedOpt E on on') :
      SwappedCall E (.leftJoin t on) (.leftJoin t on')
  | leftJoinOptional (t : TableAliased) {on on' : Option Fragment} (h : SwappedOpt E on on') :
      SwappedCall E (.leftJoinOptional t on) (.leftJoinOptional t on')
  | rightJoin (t : TableAliased) {on on' : Option Fragment} (h : SwappedOpt E on on') :
      SwappedCall E (.rightJoin t on) (.rightJoin t on')
  | fullJoin (t : TableAliased) {on on' : Option Fragment} (h : SwappedOpt E on on') :
      SwappedCall E (.fullJoin t on) (.fullJoin t on')

/-- Query builders made by the same calls, but for replaced builders. -/
def SwappedQuery (E : Builder → Builder → Prop) (b b' : QB) : Prop :=
  ∃ cs cs', runCalls QB.new cs = .ok b ∧ runCalls QB.new cs' = .ok b' ∧ Pointwise (SwappedCall E) cs cs'

end Sqlf.Spec
