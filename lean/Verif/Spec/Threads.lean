import Verif.Model.Threads
import Verif.Spec.Again
import Verif.Spec.QueryDoc
/-!
# Small specification for goroutines
-/

namespace Sqlf.Spec

/-- Goroutines that each call `BuildQuery` once, with query builders in memory that they may share. -/
def started (L : GoLib) (fuel : Nat) (builds : List (Builder × Style)) (heap : List QB) :
    Sys (Out (Str × List Val) × List Str) :=
  { heap := heap, threads := builds.map fun b => buildThread L fuel b.1 b.2 }

/-- A schedule that gives goroutine `i` a turn again and again. -/
def Fair (σ : Nat → Nat) (i : Nat) : Prop := ∀ n, ∃ m, n ≤ m ∧ σ m = i

/-- The first `n` steps of a schedule. -/
def firstSteps (σ : Nat → Nat) (n : Nat) : List Nat := (List.range n).map σ

mutual
/-- The query builders a builder refers to are in `S`, those that its code refers to included. -/
def RefsIn (S : Nat → Prop) : Builder → Prop
  | .frag f => RefsInF S f
  | .column _ f => RefsInF S f
  | .qb r => S r
  | .custom p => RefsInP S p
  | _ => True
def RefsInF (S : Nat → Prop) : Fragment → Prop
  | .mk _ _ frags _ _ => RefsInL S frags
def RefsInL (S : Nat → Prop) : List Builder → Prop
  | [] => True
  | b :: bs => RefsIn S b ∧ RefsInL S bs
def RefsInP (S : Nat → Prop) : Prog → Prop
  | .ret _ => True
  | .fail _ => True
  | .panic _ _ => True
  | .commit _ k => ∀ t, RefsInP S (k t)
  | .args k => ∀ vs, RefsInP S (k vs)
  | .build b k => RefsIn S b ∧ ∀ r, RefsInP S (k r)
  | .buildWith fm b k => RefsInM S fm ∧ RefsIn S b ∧ ∀ r, RefsInP S (k r)
  | .query _ b k => RefsIn S b ∧ ∀ r, RefsInP S (k r)
def RefsInM (S : Nat → Prop) : List (Str × FuncVal) → Prop
  | [] => True
  | p :: fm => RefsInE S p ∧ RefsInM S fm
def RefsInE (S : Nat → Prop) : Str × FuncVal → Prop
  | (_, v) => RefsInV S v
def RefsInV (S : Nat → Prop) : FuncVal → Prop
  | .notFunc => True
  | .func _ _ _ body => RefsInB S body
def RefsInB (S : Nat → Prop) : Body → Prop
  | .builtin _ => True
  | .custom p => ∀ vs, RefsInP S (p vs)
end

/-- The query builders in `S` refer only to query builders in `S`. -/
def ClosedIn (S : Nat → Prop) (heap : List QB) : Prop :=
  ∀ r b, S r → heap[r]? = some b → ∀ c ∈ partsOf b, RefsIn S c

/-- The memory a goroutine is about to access: a query builder, fields of it, and whether it writes. -/
def nextAccess : Th α → Option (Nat × List Field × Bool)
  | .done _ => none
  | .read r fs _ => some (r, fs, false)
  | .write r f _ _ => some (r, [f], true)

/-- A data race: goroutines `i` and `j` are about to access field `f` of the same query builder, and at
least one of them writes. -/
def Races (s : Sys α) (i j : Nat) (f : Field) : Prop :=
  ∃ (t u : Th α) (r : Nat) (fs gs : List Field) (w v : Bool), i ≠ j ∧ s.threads[i]? = some t ∧ s.threads[j]? = some u ∧
    nextAccess t = some (r, fs, w) ∧ nextAccess u = some (r, gs, v) ∧ f ∈ fs ∧ f ∈ gs ∧ (w = true ∨ v = true)

/-- What `BuildQuery` returns and logs when nothing else runs. -/
def Alone (L : GoLib) (b : Builder) (style : Style) (heap : List QB) (r : Out (Str × List Val) × List Str) : Prop :=
  r.1 ≠ .oof ∧ ∃ N, ∀ n, N ≤ n → ((buildQueryS L n b style heap).1, (buildQueryS L n b style heap).2.log) = r

/-- The query builders of goroutine `i` are in `Mine`, those of the others in `Others`: no query builder is
in both. -/
structure Apart (builds : List (Builder × Style)) (heap : List QB) (i : Nat) (Mine Others : Nat → Prop) : Prop where
  mine : ∀ b style, builds[i]? = some (b, style) → RefsIn Mine b
  closed : ClosedIn Mine heap
  others : ∀ j b style, j ≠ i → builds[j]? = some (b, style) → RefsIn Others b
  othersClosed : ClosedIn Others heap
  apart : ∀ r, Mine r → ¬ Others r

end Sqlf.Spec
