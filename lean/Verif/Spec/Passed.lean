import Verif.Spec.Funcs
/-!
# What a function gets from a call in a template, and what the call gets from it
-/

namespace Sqlf

open Spec

/-- What a parameter of the given type gets from a literal of its kind: numbers as numbers of this type, strings and
bools as they are. -/
def received : GoType → CallArg → Option ArgVal
  | .num k _, .num x => some (.num k (.num x))
  | .string _, .str s => some (.str s)
  | .bool _, .bool b => some (.bool b)
  | _, _ => none

/-- The call has as many literals as the function has parameters, all of them are of the kind of their parameter, and
they give the values `vs`. -/
def Receives (f : FuncInfo) (as : List CallArg) (vs : List ArgVal) : Prop :=
  countFits f as.length ∧ vs.length = as.length ∧
  ∀ (k : Nat) (a : CallArg), as[k]? = some a → ∃ t v, paramType f k = some t ∧ received t a = some v ∧ vs[k]? = some v

/-- A string or bool type that is not Go's `string` or `bool`, but defined by a `type` declaration. -/
def definedType : GoType → Bool
  | .string n => n ≠ 0
  | .bool n => n ≠ 0
  | _ => false

/-- What a call is, given how the function ended: the text that it returned (none for a function without results), or
the error that it returned or panicked with, wrapped with the name of the function. -/
def callOutcome (f : FuncInfo) : Out Str → Out Str
  | .ok t => .ok (if f.outs = [] then [] else t)
  | .err e => .err (.wrap f.name e)
  | .panic (.value m b) => .err (.wrap f.name (.user m b))
  | .panic p => .err (.wrap f.name (.recovered p))
  | .oof => .oof

end Sqlf
