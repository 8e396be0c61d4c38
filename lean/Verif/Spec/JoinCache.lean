import Verif.Model.JoinCache
/-!
# What the answers of `#join`'s test should be
-/

namespace Sqlf

/-- The answer is the one that a test made at the time of the ask gives, and the ask leaves the state as such a test
does. -/
def JoinAsk.UpToDate (rec : Rec) (f : FuncInfo) (a : JoinAsk) : Prop :=
  joinCompatible rec f a.before = (a.answer, a.after)

/-- Together the tests of all asks ran so often. -/
def testsOf : List JoinAsk → Nat
  | [] => 0
  | a :: as => a.tests + testsOf as

end Sqlf
