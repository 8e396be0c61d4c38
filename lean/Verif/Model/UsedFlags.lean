import Verif.Model.Properties
/-!
# The `used` flags of properties that a user makes (property.go, properties.go)

Model/Properties.lean leaves the flags out, since no build reads those of a list that a user makes; the user can,
with `Used`.  Simplifications: the contexts used with one list have the same root context, and no value of the list
refers to the list itself.
-/

namespace Sqlf

/-- `Properties` (properties.go:6): the value and the flag of every property (`defaultProperty`, property.go:14-17) -/
abbrev Flagged := List (Builder × Bool)

/-- The loops of `NewFragmentProperties` and `NewArgsProperties` (properties.go:34-51) with `newDefaultProperty`
(property.go:20-24); the values are those of Model/Properties.lean. -/
def newFlagged : List Builder → Flagged
  | [] => []
  | b :: bs => (b, false) :: newFlagged bs

/-- A call: `ps.Build(ctx, i)`; `ps[k].BuildFragment(ctx)`, `ps[k].ReportUsed()`, `ps[k].Used()` with `k` from 0. -/
inductive MarkOp where
  | build (ctx : Ctx) (i : Int)
  | buildItem (ctx : Ctx) (k : Nat)
  | reportUsed (k : Nat)
  | used (k : Nat)

/-- What a call returns. -/
inductive MarkRes where
  | built (o : Out Str)
  | done
  | isUsed (b : Bool)
  | outOfRange

/-- `p.used = true` of the property at `k` (property.go:28, 38) -/
def Flagged.mark : Flagged → Nat → Flagged
  | [], _ => []
  | (b, _) :: ps, 0 => (b, true) :: ps
  | p :: ps, k + 1 => p :: Flagged.mark ps k

/-- `defaultProperty.BuildFragment` (property.go:37-40) of the property at `k`: the flag is set first. -/
def Flagged.buildAt (L : GoLib) (n : Nat) (ctx : Ctx) (ps : Flagged) (k : Nat) (s : St) : MarkRes × Flagged × St :=
  match ps[k]? with
  | none => (.outOfRange, ps, s)
  | some (b, _) =>
    let r := run L n ctx (.build b) s
    (.built r.1, ps.mark k, r.2)

/-- One call: `Build` (properties.go:14-19), `BuildFragment`, `ReportUsed`, `Used` (property.go:27-40).  `n` is the
fuel of builds. -/
def MarkOp.run (L : GoLib) (n : Nat) (ps : Flagged) (s : St) : MarkOp → MarkRes × Flagged × St
  | .build ctx i =>
    match position i ps.length with
    | none => (.built (.err (.invalidIndex i)), ps, s)
    | some k => ps.buildAt L n ctx k s
  | .buildItem ctx k => ps.buildAt L n ctx k s
  | .reportUsed k =>
    match ps[k]? with
    | none => (.outOfRange, ps, s)
    | some _ => (.done, ps.mark k, s)
  | .used k =>
    match ps[k]? with
    | none => (.outOfRange, ps, s)
    | some p => (.isUsed p.2, ps, s)

/-- Calls one after the other; a panic is recovered by the caller. -/
def runMarks (L : GoLib) (n : Nat) : Flagged → St → List MarkOp → List MarkRes × Flagged × St
  | ps, s, [] => ([], ps, s)
  | ps, s, op :: ops =>
    let r := op.run L n ps s
    let rs := runMarks L n r.2.1 r.2.2 ops
    (r.1 :: rs.1, rs.2)

end Sqlf
