import Verif.Model.Util
/-!
# Registration of preprocessing functions

Model of func.go:51-196, context_func.go, contex_with.go and context.go:18-27.
-/

namespace Sqlf

/-- `goodName` (func.go:137-147) -/
def goodName (L : GoLib) (name : Str) : Bool :=
  name ≠ [] && (runes name).all fun r => r == 0x5F || isLetterRune L r

/-- `goodArgType` and `numberType` (func.go:183-196) -/
def goodArgType : GoType → Bool
  | .num _ _ => true
  | .string _ => true
  | .bool _ => true
  | _ => false

/-- The output part of `goodFunc` (func.go:151-165) -/
def goodOuts : List GoType → Bool
  | [] => true
  | [o] => o = .string 0
  | [o, e] => o = .string 0 && e = .error
  | _ => false

/-- The argument types `goodFunc` checks (func.go:168-174): all but a leading context; the
last one of a variadic function by its element type.  A parameter list consisting of only a
variadic `...*Context` is not skipped (its type is `[]*Context`). -/
def checkedArgTypes (ins : List GoType) (variadic : Bool) : List GoType :=
  let ts := if variadic then ins.dropLast ++ (ins.getLast?.map GoType.elem).toList else ins
  if ins.head? = some .context then ts.drop 1 else ts

/-- `goodFunc` (func.go:150-181) -/
def goodFunc (f : FuncInfo) : Option FuncErr :=
  if !goodOuts f.outs then some .badOutputs
  else if (checkedArgTypes f.ins f.variadic).all goodArgType then none
  else some .badArgType

/-- Map lookup in a `map[string]*funcInfo`. -/
def lookupFn (m : List (Str × FuncInfo)) (name : Str) : Option FuncInfo :=
  (m.find? fun p => p.1 = name).map (·.2)

/-- `addValueFuncs` (func.go:89-134), iterating over the map in the order of the list. -/
def addValueFuncs (L : GoLib) (out : List (Str × FuncInfo)) :
    FuncMap → Except Err (List (Str × FuncInfo))
  | [] => .ok out
  | (name, fv) :: rest =>
    if !goodName L name then .error (.badFunc name .badName)
    else
      match fv with
      | .notFunc => .error (.badFunc name .notFunc)
      | .func ins variadic outs body =>
        if (lookupFn out name).isSome then .error (.badFunc name .alreadyDefined)
        else
          let f : FuncInfo := { name, ins, variadic, outs, body }
          match goodFunc f with
          | some e => .error (.badFunc name e)
          | none => addValueFuncs L (out ++ [(name, f)]) rest

/-- The built-in functions (func_builtin.go:11-16 with the signatures of 18, 97, 105). -/
def builtInFuncs : FuncMap :=
  let index (b : Builtin) : FuncVal :=
    .func [.context, .num .int 0] false [.string 0, .error] (.builtin b)
  [ (lit "arg", index .arg),
    (lit "f", index .fragment),
    (lit "fragment", index .fragment),
    (lit "join", .func [.context, .string 0, .string 0, .slice (.num .int 0)] true
        [.string 0, .error] (.builtin .join)) ]

/-- `NewContext` (context.go:18-27), without the argument store (see `Store.new`); `none` =
panic. -/
def newContext (L : GoLib) : Option Ctx :=
  match addValueFuncs L [] builtInFuncs with
  | .ok m => some { funcs := [m], frame := none }
  | .error _ => none

/-- `newEmptyContext` (context.go:29-40), without the argument store -/
def newEmptyContext : Ctx := { funcs := [[]], frame := none }

/-- `contextWithFragment` (context_fragment.go:28-34, 43-52) with the `used` flags all false,
which is `St.usedA = St.usedF = []` -/
def Ctx.withFragment (c : Ctx) (f : Fragment) : Ctx :=
  { c with frame := some { args := f.args, frags := f.frags } }

/-- `contextWithFragment(ctx, nil)` (context_fragment.go:43-46) -/
def Ctx.withNilFragment (c : Ctx) : Ctx := { c with frame := some { args := [], frags := [] } }

/-- `ContextWithFuncs` (context_func.go:4-9) -/
def contextWithFuncs (L : GoLib) (c : Ctx) (fm : FuncMap) : Except Err Ctx :=
  match addValueFuncs L [] fm with
  | .error e => .error e
  | .ok m => .ok { c with funcs := m :: c.funcs }

/-- `(*Context).fn` (context_func.go:11-19, contex_with.go:10-18): nearest layer first -/
def Ctx.fn (c : Ctx) (name : Str) : Option FuncInfo :=
  c.funcs.findSome? fun m => lookupFn m name

end Sqlf
