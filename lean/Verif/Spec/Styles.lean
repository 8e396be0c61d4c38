import Verif.Spec.QueryDoc
import Verif.Spec.QueryShape
import Verif.Spec.Shape
import Verif.Spec.GoEqual
/-!
# User code that does not look at placeholders

Two runs of the same code, one with `?` and one with `$n` in the texts it gets.
-/

namespace Sqlf.Spec

/-- Two texts that are the same but for their placeholders: where the first has the `?` of the `k`-th committed value,
the second has `$n`, and `n` is the `k`-th of the numbers `ns`. -/
def SameButMarks (ns : List Nat) (s s' : Str) : Prop :=
  ∃ d, (∀ k ∈ binds d, k < ns.length) ∧ s = renderDoc (ns.map fun _ => lit "?") d ∧ s' = renderDoc (ns.map dollarMark) d

/-- … results of builds: such texts, or the same error. -/
def SameResult (ns : List Nat) : Except Err Str → Except Err Str → Prop
  | .ok t, .ok t' => SameButMarks ns t t'
  | .error e, .error e' => e = e'
  | _, _ => False

/-- … results of `BuildQuery`: such texts and the same arguments, or the same error. -/
def SameQueryResult (ns : List Nat) : Except Err (Str × List Val) → Except Err (Str × List Val) → Prop
  | .ok a, .ok b => SameButMarks ns a.1 b.1 ∧ a.2 = b.2
  | .error e, .error e' => e = e'
  | _, _ => False

mutual
/-- Two builders that are the same but for the placeholders in texts that user code got before.  All values can be map
keys.  `ns` are the numbers of the placeholders so far. -/
def StyleFree (ns : List Nat) : Builder → Builder → Prop
  | .frag f, .frag g => StyleFreeF ns f g
  | .column t f, .column u g => t = u ∧ StyleFreeF ns f g
  | .table t, .table u => t = u
  | .aliased n a, .aliased m b => n = m ∧ a = b
  | .nil, .nil => True
  | .nilFrag, .nilFrag => True
  | .nilColumn, .nilColumn => True
  | .columnNilFrag t, .columnNilFrag u => t = u
  | .nilQb, .nilQb => True
  | .qb r, .qb r' => r = r'
  | .custom p, .custom p' => StyleFreeCode ns p p'
  | _, _ => False
termination_by structural b => b
/-- … fragments: the texts may be in prefixes and suffixes. -/
def StyleFreeF (ns : List Nat) : Fragment → Fragment → Prop
  | .mk raw args frags pre suf, .mk raw' args' frags' pre' suf' =>
    raw = raw' ∧ args = args' ∧ (∀ v ∈ args, ¬ Unhashable v) ∧ StyleFreeL ns frags frags' ∧
      SameButMarks ns pre pre' ∧ SameButMarks ns suf suf'
termination_by structural b => b
def StyleFreeL (ns : List Nat) : List Builder → List Builder → Prop
  | [], [] => True
  | b :: bs, c :: cs => StyleFree ns b c ∧ StyleFreeL ns bs cs
  | _, _ => False
termination_by structural b => b
/-- … user code: the same steps for all texts that are the same but for their placeholders, new ones included, and
whatever the arguments so far are. -/
def StyleFreeCode (ns : List Nat) : Prog → Prog → Prop
  | .ret s, .ret s' => SameButMarks ns s s'
  | .fail e, .fail e' => e = e'
  | .panic m b, .panic m' b' => m = m' ∧ b = b'
  | .commit v k, .commit v' k' => v = v' ∧ ¬ Unhashable v ∧
    ∀ ns', ns <+: ns' → ∀ t t', SameButMarks ns' t t' → StyleFreeCode ns' (k t) (k' t')
  | .args k, .args k' => ∀ vs vs', StyleFreeCode ns (k vs) (k' vs')
  | .build b k, .build b' k' => StyleFree ns b b' ∧
    ∀ ns', ns <+: ns' → ∀ r r', SameResult ns' r r' → StyleFreeCode ns' (k r) (k' r')
  | .buildWith fm b k, .buildWith fm' b' k' => StyleFreeFuncs ns fm fm' ∧ StyleFree ns b b' ∧
    ∀ ns', ns <+: ns' → ∀ r r', SameResult ns' r r' → StyleFreeCode ns' (k r) (k' r')
  | .query style b k, .query style' b' k' => style = style' ∧ StyleFree ns b b' ∧
    ∀ ns', ns <+: ns' → ∀ r r', SameQueryResult ns' r r' → StyleFreeCode ns' (k r) (k' r')
  | _, _ => False
termination_by structural b => b
/-- … functions -/
def StyleFreeFunc (ns : List Nat) : FuncVal → FuncVal → Prop
  | .notFunc, .notFunc => True
  | .func ins v outs body, .func ins' v' outs' body' => ins = ins' ∧ v = v' ∧ outs = outs' ∧ StyleFreeBody ns body body'
  | _, _ => False
termination_by structural b => b
def StyleFreeBody (ns : List Nat) : Body → Body → Prop
  | .builtin b, .builtin b' => b = b'
  | .custom p, .custom p' => ∀ vs, StyleFreeCode ns (p vs) (p' vs)
  | _, _ => False
termination_by structural b => b
def StyleFreeEntry (ns : List Nat) : Str × FuncVal → Str × FuncVal → Prop
  | (n, f), (n', f') => n = n' ∧ StyleFreeFunc ns f f'
termination_by structural b => b
def StyleFreeFuncs (ns : List Nat) : List (Str × FuncVal) → List (Str × FuncVal) → Prop
  | [], [] => True
  | e :: es, e' :: es' => StyleFreeEntry ns e e' ∧ StyleFreeFuncs ns es es'
  | _, _ => False
termination_by structural b => b
end

/-- The builder, and the user code in it, does not look at placeholders. -/
def BlindToStyle (b : Builder) : Prop := StyleFree [] b b

/-- What is given to the call does not look at placeholders. -/
def BlindCall : Call → Prop
  | .select cs => ∀ c ∈ cs, BlindToStyle c
  | .groupBy cs => ∀ c ∈ cs, BlindToStyle c
  | .orderBy c _ => BlindToStyle c
  | .union bs => ∀ b ∈ bs, BlindToStyle b
  | .with_ _ b _ => BlindToStyle b
  | .where_ f => ∀ g, f = some g → BlindToStyle (.frag g)
  | .where2 c _ v => BlindToStyle c ∧ ¬ Unhashable v
  | .whereIn c l => BlindToStyle c ∧ ∃ vs, argsFlatted [l] = .ok vs ∧ ∀ v ∈ vs, ¬ Unhashable v
  | .whereNotIn c l => BlindToStyle c ∧ ∃ vs, argsFlatted [l] = .ok vs ∧ ∀ v ∈ vs, ¬ Unhashable v
  | .innerJoin _ on => ∀ g, on = some g → BlindToStyle (.frag g)
  | .leftJoin _ on => ∀ g, on = some g → BlindToStyle (.frag g)
  | .leftJoinOptional _ on => ∀ g, on = some g → BlindToStyle (.frag g)
  | .rightJoin _ on => ∀ g, on = some g → BlindToStyle (.frag g)
  | .fullJoin _ on => ∀ g, on = some g → BlindToStyle (.frag g)
  | .debug => False
  | _ => True

/-- The query builder was made by calls with builders that do not look at placeholders, and does not log. -/
def BlindQuery (b : QB) : Prop := ∃ cs, runCalls QB.new cs = .ok b ∧ ∀ c ∈ cs, BlindCall c

/-- The same query, once with `?` and once with `$n`, where the `$n` in place of the `k`-th committed value refers to
an argument equal to it; the same error; or the same panic.  The arguments of the second query are those of the first
but for repetitions. -/
def SameInBothStyles : Out (Str × List Val) → Out (Str × List Val) → Prop
  | .ok (q, vs), .ok (q', as) =>
    (∃ d ps, q = renderDoc (List.replicate vs.length (lit "?")) d ∧ q' = renderDoc ps d ∧
      ∀ k ∈ binds d, ∃ n v w, ps[k]? = some (dollarMark n) ∧ vs[k]? = some v ∧
        1 ≤ n ∧ as[n - 1]? = some w ∧ (w = v ∨ GoEqual w v)) ∧
    as.Sublist vs ∧ (∀ v ∈ vs, ∃ w ∈ as, w = v ∨ GoEqual w v) ∧
    ∀ (i j : Nat) (v w : Val), i ≠ j → as[i]? = some v → as[j]? = some w → ¬ GoEqual v w
  | .err e, .err e' => e = e'
  | .panic p, .panic p' => p = p'
  | _, _ => False

end Sqlf.Spec
