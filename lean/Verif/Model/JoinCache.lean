import Verif.Model.Eval
/-!
# The kept result of `#join`'s test of a function (func.go:51-76)

Model/Eval.lean repeats the test on every use of `#join`.  Here it is kept with the function, as the code does.
-/

namespace Sqlf

/-- `joinTested` and `joinError` of a `funcInfo` (func.go:64-65): `none` when the function was not tested,
`some true` when `joinError` is nil.  The text of `joinError` is left out. -/
abbrev JoinCell := Option Bool

/-- `JoinCompatibilityError` (func.go:69-76); the result is "compatible".  When the test panics, `joinTested` is not
set.  The last component is the number of times that `joinCompatibility` ran, and is there only to state things. -/
def askJoin (rec : Rec) (f : FuncInfo) (c : JoinCell) (s : St) : Out Bool × JoinCell × St × Nat :=
  match c with
  | some v => (.ok v, c, s, 0)
  | none =>
    match joinCompatible rec f s with
    | (.ok v, s') => (.ok v, some v, s', 1)
    | (.err e, s') => (.err e, none, s', 1)
    | (.panic p, s') => (.panic p, none, s', 1)
    | (.oof, s') => (.oof, none, s', 1)

/-- What a program with one context does: a `#join` asks whether the function is compatible (func_builtin.go:52),
or anything else happens that changes the state. -/
inductive JoinStep where
  | ask
  | other (g : St → St)

/-- What there is to see of one ask: the state before and after it, the answer, and how often the test ran. -/
structure JoinAsk where
  before : St
  answer : Out Bool
  after : St
  tests : Nat

/-- A run of `steps` with one function whose cell is `c` at first: `createValueFuncs` leaves it untested
(func.go:79-135). -/
def runJoins (rec : Rec) (f : FuncInfo) : JoinCell → St → List JoinStep → List JoinAsk
  | _, _, [] => []
  | c, s, .other g :: steps => runJoins rec f c (g s) steps
  | c, s, .ask :: steps =>
    let r := askJoin rec f c s
    ⟨s, r.1, r.2.2.1, r.2.2.2⟩ :: runJoins rec f r.2.1 r.2.2.1 steps

end Sqlf
