import Verif.Model.Eval
/-!
# Properties shared by fragments (properties.go)

The argument and fragment lists of a fragment context are properties too; these are modelled by
`argBuild` and `fragmentBuild` (`Verif.Model.Eval`).  Here are the lists a user makes and calls from
functions of their own.  The `used` flags of such lists are left out: no build reads them
(`checkUsage` is called for fragment contexts only, context_fragment.go:55-74); Model/UsedFlags.lean has them.
-/

namespace Sqlf

/-- `arg.BuildFragment` (properties.go:55-63) -/
def argProperty (v : Val) : Builder := .custom (.commit v .ret)

/-- `NewFragmentProperties` (properties.go:34-40) -/
def newFragmentProperties (fragments : List Builder) : List Builder := fragments

/-- `NewArgsProperties` (properties.go:45-51) -/
def newArgsProperties (args : List Val) : List Builder := args.map argProperty

/-- `return b.BuildFragment(ctx)`: the results of a build are returned. -/
def returnBuild : Except Err Str → Prog
  | .ok t => .ret t
  | .error e => .fail e

/-- `Properties.Build` (properties.go:14-19), `defaultProperty.BuildFragment` (property.go:37-40):
what a function of the user does that calls it. -/
def propertiesBuild (ps : List Builder) (i : Int) : Prog :=
  match position i ps.length with
  | none => .fail (.invalidIndex i)
  | some k =>
    match ps[k]? with
    | some b => .build b returnBuild
    | none => .panic (lit "index out of range") false

/-- `func(ctx *sqlf.Context, i int) (string, error) { return ps.Build(ctx, i) }` as a value of a
`FuncMap` (example_test.go:124-128) -/
def propertiesFunc (L : GoLib) (ps : List Builder) : FuncVal :=
  .func [.context, .num .int 0] false [.string 0, .error]
    (.custom fun vs => propertiesBuild ps ((vs.getD 0 .context).toInt L))

end Sqlf
