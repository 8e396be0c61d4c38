import Verif.Model.Jobs
import Verif.Spec.Threads
/-!
# Small specification for goroutines that make and build queries
-/

namespace Sqlf.Spec

/-- Goroutines that each have a list of jobs, with query builders in memory. -/
def working (L : GoLib) (fuel : Nat) (work : List (List Job)) (heap : List QB) : Sys (List Shown) :=
  { heap := heap, threads := work.map (jobsThread L fuel) }

/-- `BuildQuery` returns `o`, logs `log` and leaves the query builders as in `heap'`. -/
def ReturnsLogging (L : GoLib) (b : Builder) (style : Style) (heap : List QB) (o : Out (Str × List Val))
    (log : List Str) (heap' : List QB) : Prop :=
  o ≠ .oof ∧ ∃ N, ∀ n, N ≤ n → (buildQueryS L n b style heap).1 = o ∧ (buildQueryS L n b style heap).2.log = log ∧
    (buildQueryS L n b style heap).2.heap = heap'

/-- What comes of the jobs when nothing else runs: one after the other, each with the query builders as the ones
before left them. Nothing is done after a panic. -/
inductive DoneAlone (L : GoLib) : List QB → List Job → List Shown → Prop where
  | nil (heap : List QB) : DoneAlone L heap [] []
  | build {heap heap' : List QB} {b : Builder} {style : Style} {o : Out (Str × List Val)} {log : List Str}
      {jobs : List Job} {rest : List Shown} (h : ReturnsLogging L b style heap o log heap') (hp : ∀ p, o ≠ .panic p)
      (hs : DoneAlone L heap' jobs rest) : DoneAlone L heap (.build b style :: jobs) (.built o log :: rest)
  | buildPanics {heap heap' : List QB} {b : Builder} {style : Style} {p : Panic} {log : List Str} {jobs : List Job}
      (h : ReturnsLogging L b style heap (.panic p) log heap') :
      DoneAlone L heap (.build b style :: jobs) [.built (.panic p) log]
  | call {heap : List QB} {r : Nat} {c : Call} {b b' : QB} {jobs : List Job} {rest : List Shown}
      (hr : heap[r]? = some b) (h : c.apply b = .ok b') (hs : DoneAlone L (heap.set r b') jobs rest) :
      DoneAlone L heap (.call r c :: jobs) (.called :: rest)
  | callPanics {heap : List QB} {r : Nat} {c : Call} {b : QB} {p : Panic} {jobs : List Job}
      (hr : heap[r]? = some b) (h : c.apply b = .panic p) : DoneAlone L heap (.call r c :: jobs) [.panicked]

/-- The query builders that the arguments of a call refer to are in `S`. -/
def CallIn (S : Nat → Prop) : Call → Prop
  | .select cs => ∀ c ∈ cs, RefsIn S c
  | .groupBy cs => ∀ c ∈ cs, RefsIn S c
  | .orderBy c _ => RefsIn S c
  | .union bs => ∀ b ∈ bs, RefsIn S b
  | .with_ _ b _ => RefsIn S b
  | .where_ (some f) => RefsInF S f
  | .where2 c _ _ => RefsIn S c
  | .whereIn c _ => RefsIn S c
  | .whereNotIn c _ => RefsIn S c
  | .innerJoin _ (some f) => RefsInF S f
  | .leftJoin _ (some f) => RefsInF S f
  | .leftJoinOptional _ (some f) => RefsInF S f
  | .rightJoin _ (some f) => RefsInF S f
  | .fullJoin _ (some f) => RefsInF S f
  | _ => True

/-- The query builders that are nobody's, and those of goroutine `i`. -/
def Usable (owner : Nat → Option Nat) (i : Nat) (r : Nat) : Prop := owner r = none ∨ owner r = some i

/-- Each query builder is shared by all goroutines (`owner r = none`) or belongs to one.  The shared ones are not
changed by calls, use only shared ones, and can be built again and again; the goroutines change their own, and use
their own and the shared ones. -/
structure Owned (L : GoLib) (owner : Nat → Option Nat) (work : List (List Job)) (heap : List QB) : Prop where
  repeatable : ∀ r b, owner r = none → heap[r]? = some b → ∃ cs, Made L cs b ∧ Repeatable cs
  shared : ∀ r b, owner r = none → heap[r]? = some b → ∀ c ∈ partsOf b, RefsIn (fun r => owner r = none) c
  own : ∀ r b i, owner r = some i → heap[r]? = some b → ∀ c ∈ partsOf b, RefsIn (Usable owner i) c
  builds : ∀ i jobs b style, work[i]? = some jobs → .build b style ∈ jobs → RefsIn (Usable owner i) b
  calls : ∀ i jobs r c, work[i]? = some jobs → .call r c ∈ jobs → owner r = some i ∧ CallIn (Usable owner i) c

end Sqlf.Spec
