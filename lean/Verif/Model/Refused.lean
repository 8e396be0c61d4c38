import Verif.Model.Funcs
/-!
# `ContextWithFuncs` with both of its results

Model/Funcs.lean drops the context that is returned beside an error.
-/

namespace Sqlf

/-- `addValueFuncs` (func.go:89-134) with the map `out` as it is when the function returns; the iteration is in the
order of the list. -/
def fillFuncs (L : GoLib) (out : List (Str × FuncInfo)) : FuncMap → List (Str × FuncInfo) × Option Err
  | [] => (out, none)
  | (name, fv) :: rest =>
    if !goodName L name then (out, some (.badFunc name .badName))
    else
      match fv with
      | .notFunc => (out, some (.badFunc name .notFunc))
      | .func ins variadic outs body =>
        if (lookupFn out name).isSome then (out, some (.badFunc name .alreadyDefined))
        else
          let f : FuncInfo := { name, ins, variadic, outs, body }
          match goodFunc f with
          | some e => (out, some (.badFunc name e))
          | none => fillFuncs L (out ++ [(name, f)]) rest

/-- `ContextWithFuncs` (context_func.go:4-9; contex_with.go:3-8): the context is returned whether or not there is an error. -/
def contextWithFuncsBoth (L : GoLib) (c : Ctx) (fm : FuncMap) : Ctx × Option Err :=
  let r := fillFuncs L [] fm
  ({ c with funcs := r.1 :: c.funcs }, r.2)

end Sqlf
