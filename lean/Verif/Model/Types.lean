import Verif.Model.Val
/-!
# Types shared by the builders: errors, panics, fragments, builders, functions, contexts, state
-/

namespace Sqlf

/-! ## Errors and panics -/

/-- Run-time panics the modelled code can raise.  `value e` is `panic(e)` in user code. -/
inductive Panic where
  | unhashableKey          -- map access with an unhashable key (context_args.go:58)
  | nilDereference         -- nil pointer / nil interface method call
  | indexOutOfRange        -- slice index (sqlb/query_builder_dependecy.go:24, util/interpolate.go:57)
  | reflectConvert         -- reflect.Value.Convert to an inconvertible type (func_exec.go:119)
  | reflectCall            -- reflect.Value.Call with a mismatching argument type (func_exec.go:85)
  | value (msg : Str) (isInvalidIndex : Bool)
deriving DecidableEq, Repr

/-- Reasons for rejecting a function given to `ContextWithFuncs` (func.go:89-181). -/
inductive FuncErr where
  | badName | notFunc | alreadyDefined | badOutputs | badArgType
deriving DecidableEq, Repr

/-- Go `error` values, structured instead of formatted.  `wrap` is any `fmt.Errorf("…%w…")`;
`user` is an error made by user code, with whether it wraps `ErrInvalidIndex`. -/
inductive Err where
  | invalidIndex (i : Int)                       -- properties.go:16
  | parse (e : PErr)                             -- build.go:62, func_builtin.go:39
  | bindVarIndex (i : Int)                       -- build.go:84
  | unused (arg fragment : Option Nat)           -- context_fragment.go:59-72, properties.go:25 (from 1)
  | noFragment                                   -- context_fragment.go:22
  | undefinedFunc (name : Str)                   -- func_exec.go:11
  | wrongArgCount (name : Str)                   -- func_exec.go:27, 30
  | argType (name : Str)                         -- func_exec.go:52, 61
  | forgotCall (name : Str)                      -- build.go:98
  | joinTooManyArgs                              -- func_builtin.go:29
  | joinRange                                    -- func_builtin.go:35
  | joinUnknownFunc (name : Str)                 -- func_builtin.go:50
  | joinIncompatible (name : Str)                -- func_builtin.go:53
  | joinNoFunc                                   -- func_builtin.go:62
  | badFunc (name : Str) (e : FuncErr)           -- func.go:89-134
  | recovered (p : Panic)                        -- func_exec.go:75-83
  | builder (msg : Str)                          -- sqlb errors with fixed text
  | fromUndefined (t : Str)                      -- sqlb/query_builder_dependecy.go:63
  | noColumns                                    -- sqlb/query_builder_build.go:163
  | collected (msg : Str)                        -- sqlb/query_builder_errors.go:12-24
  | unsupportedDecl                              -- util/interpolate.go:63
  | unsupportedType                              -- util/interpolate.go:114
  | valuer                                       -- util/interpolate.go:77
  | user (msg : Str) (isInvalidIndex : Bool)
  | wrap (ctx : Str) (e : Err)
deriving DecidableEq, Repr

/-- `errors.Is(err, ErrInvalidIndex)`: some error on the unwrap chain is `ErrInvalidIndex`. -/
def Err.isInvalidIndex : Err → Bool
  | .invalidIndex _ => true
  | .user _ b => b
  | .wrap _ e => e.isInvalidIndex
  | _ => false

/-- The error `safeCall` makes of a recovered panic (func_exec.go:75-83): the panic value itself
if it is an error. -/
def Panic.toErr : Panic → Err
  | .value m b => .user m b
  | p => .recovered p

/-- Outcome of a Go call returning `(α, error)`: success, error, run-time panic, or — a model
artefact — fuel exhausted (the Go call is still running). -/
inductive Out (α : Type) where
  | ok (a : α)
  | err (e : Err)
  | panic (p : Panic)
  | oof
deriving Repr, DecidableEq

/-! ## Function signatures (reflect types as far as func.go looks at them) -/

/-- Number kinds (func.go:188-196). -/
inductive NumKind where
  | int | int8 | int16 | int32 | int64 | uint | uint8 | uint16 | uint32 | uint64
  | float32 | float64
deriving DecidableEq, Repr

/-- `reflect.Type` as far as func.go and func_exec.go distinguish it.  `name = 0` is the
predeclared type, other numbers are defined types (`type T string`) of that kind. -/
inductive GoType where
  | num (k : NumKind) (name : Nat)
  | string (name : Nat)
  | bool (name : Nat)
  | error
  | context                 -- `*sqlf.Context`
  | slice (elem : GoType)   -- `[]T`; the type of a variadic parameter
  | other (id : Nat)
deriving DecidableEq, Repr

/-- `t.Elem()` on a slice type (func.go:173, 207, 218; func_exec.go:57). -/
def GoType.elem : GoType → GoType
  | .slice e => e
  | t => t

/-- An argument value as a preprocessing function receives it (after `evalArg`,
func_exec.go:108-142).  A number keeps its source and the kind it was converted to. -/
inductive ArgVal where
  | context
  | num (k : NumKind) (src : CallArg)
  | str (s : Str)
  | bool (b : Bool)
  | runeStr (i : Int)       -- `string(rune(i))`, an `int` converted to a string type
deriving DecidableEq, Repr

/-- The built-in functions (func_builtin.go:11-16). -/
inductive Builtin where
  | arg | fragment | join
deriving DecidableEq, Repr

/-! ## Fragments and fragment builders -/

mutual
/-- A `FragmentBuilder` (sqlf.go:53-57) as it can occur in `Fragment.Fragments`, a CTE or a
union.  `custom` is a user implementation; `qb` is a pointer to a `*sqlb.QueryBuilder` in the
heap of the state.  A `*Fragment` is modelled by its contents at the time of the build. -/
inductive Builder where
  | nil                                          -- nil interface
  | nilFrag                                      -- (*sqlf.Fragment)(nil)
  | frag (f : Fragment)
  | nilColumn                                    -- (*sqlb.Column)(nil)
  | columnNilFrag (table : Str)                  -- &Column{fragment: nil, table: t}
  | column (table : Str) (f : Fragment)          -- sqlb/table_column.go:10-19
  | table (t : Str)                              -- sqlb.Table
  | aliased (name alias : Str)                   -- sqlb.TableAliased
  | nilQb                                        -- (*sqlb.QueryBuilder)(nil)
  | qb (ref : Nat)
  | custom (p : Prog)
/-- `Fragment` (fragment.go:5-11). -/
inductive Fragment where
  | mk (raw : Str) (args : List Val) (frags : List Builder) (pre suf : Str)
/-- User code run with a build context (a custom `FragmentBuilder` or preprocessing function):
a deterministic program over the exported API — `CommitArg`, `Args`, building other builders with
the same context, `ContextWithFuncs`, and `BuildQuery`, which makes a context of its own.  User state
other than the context is not modelled. -/
inductive Prog where
  | ret (s : Str)
  | fail (e : Err)
  | panic (msg : Str) (isInvalidIndex : Bool)
  | commit (v : Val) (k : Str → Prog)
  | args (k : List Val → Prog)
  | build (b : Builder) (k : Except Err Str → Prog)
  | buildWith (fm : List (Str × FuncVal)) (b : Builder) (k : Except Err Str → Prog)
  | query (style : Style) (b : Builder) (k : Except Err (Str × List Val) → Prog)
/-- A value of a `FuncMap` (func.go:49). -/
inductive FuncVal where
  | notFunc
  | func (ins : List GoType) (variadic : Bool) (outs : List GoType) (body : Body)
/-- What a function value does when called. -/
inductive Body where
  | builtin (b : Builtin)
  | custom (p : List ArgVal → Prog)
end

namespace Fragment
def raw : Fragment → Str | .mk r _ _ _ _ => r
def args : Fragment → List Val | .mk _ a _ _ _ => a
def frags : Fragment → List Builder | .mk _ _ f _ _ => f
def pre : Fragment → Str | .mk _ _ _ p _ => p
def suf : Fragment → Str | .mk _ _ _ _ s => s

/-- `F` (shortcut.go:4-8) -/
def F (raw : Str) : Fragment := .mk raw [] [] [] []
/-- `Fa` (shortcut.go:11-16) -/
def Fa (raw : Str) (args : List Val) : Fragment := .mk raw args [] [] []
/-- `Ff` (shortcut.go:19-24) -/
def Ff (raw : Str) (frags : List Builder) : Fragment := .mk raw [] frags [] []
/-- `WithPrefix` (fragment.go:14-17) -/
def withPrefix : Fragment → Str → Fragment | .mk r a f _ s, p => .mk r a f p s
/-- `WithSuffix` (fragment.go:20-23) -/
def withSuffix : Fragment → Str → Fragment | .mk r a f p _, s => .mk r a f p s
/-- `WithArgs` (fragment.go:26-29) -/
def withArgs : Fragment → List Val → Fragment | .mk r _ f p s, a => .mk r a f p s
/-- `WithFragments` (fragment.go:32-35) -/
def withFragments : Fragment → List Builder → Fragment | .mk r a _ p s, f => .mk r a f p s
/-- `AppendArgs` (fragment.go:38-41) -/
def appendArgs : Fragment → List Val → Fragment | .mk r a f p s, a' => .mk r (a ++ a') f p s
/-- `AppendFragments` (fragment.go:44-47) -/
def appendFragments : Fragment → List Builder → Fragment
  | .mk r a f p s, f' => .mk r a (f ++ f') p s
end Fragment

/-- `FuncMap` (func.go:49) in the order in which Go happens to iterate over it. -/
abbrev FuncMap := List (Str × FuncVal)

/-- `funcInfo` (func.go:51-66).  The cached result of the `#join` test (`joinTested`,
`joinError`) is not kept: the test is repeated on every use. -/
structure FuncInfo where
  name : Str
  ins : List GoType
  variadic : Bool
  outs : List GoType
  body : Body

namespace FuncInfo
/-- `nIn` (func.go:103, 108) -/
def nIn (f : FuncInfo) : Nat := f.ins.length
/-- `inContextFirst` (func.go:111) -/
def inContextFirst (f : FuncInfo) : Bool := f.ins.head? = some .context
/-- `nInFixed` (func.go:109, 114-116) -/
def nInFixed (f : FuncInfo) : Nat := if f.variadic then f.nIn - 1 else f.nIn
end FuncInfo

/-- `FragmentContext` (context_fragment.go:37-41) without the `used` flags, which live in the
state (`St.usedA`, `St.usedF`): `newDefaultProperty`, `ReportUsed`, `Used` (property.go:14-34). -/
structure Frame where
  args : List Val
  frags : List Builder

/-- `Context` (context.go:8-15) as seen from the innermost one: the function maps along the
`parent` chain, nearest first, and the nearest fragment context (`fragment`,
context_fragment.go:13-17, with `contextValue`, contex_with.go:10-18).  A context made from another
one (`contextWith`, contex_with.go:3-8) adds to the front.  The argument store belongs to the root of
the chain (`root`, contex_with.go:21-27; `Context.Args`, context_args.go:8-10) and lives in the
state. -/
structure Ctx where
  funcs : List (List (Str × FuncInfo))
  frame : Option Frame

/-! ## sqlb.QueryBuilder -/

/-- `TableAliased` (sqlb/table_aliased.go:13-23, with `NewTableAliased`; `Names`, 42-44, is the pair of its fields) -/
structure TableAliased where
  name : Str
  alias : Str
deriving DecidableEq, Repr

/-- `AppliedName` (sqlb/table_aliased.go:34-39) -/
def TableAliased.appliedName (t : TableAliased) : Str := if t.alias ≠ [] then t.alias else t.name

/-- `fromTable` (sqlb/query_builder.go:32-36); `fragment = none` is a nil `*Fragment`. -/
structure FromTable where
  names : TableAliased
  fragment : Option Fragment
  optional : Bool

/-- `cte` (sqlb/query_builder_with.go:38-42) -/
structure Cte where
  name : Str
  deps : List Str
  builder : Builder

/-- `orderItem` (sqlb/query_builder_order.go:31-34); the column is a `Builder` of one of the
column forms. -/
structure OrderItem where
  column : Builder
  order : Nat

/-- `QueryBuilder` (sqlb/query_builder.go:10-30).  `*fromTable` pointers are indices into
`cells`; `tables` and `tablesDict` hold pointers, so that `*target = *table` in `join`
(sqlb/query_builder_join.go:110-113) is seen by both.  `ctesDict` is not stored: `With` is the
only writer of `ctes` and `ctesDict`, so it maps a name to the last CTE of that name. -/
structure QB where
  ctes : List Cte
  cells : List FromTable
  tables : List Nat
  tablesDict : List (Str × Nat)
  selects : Fragment
  touches : Fragment
  conditions : Fragment
  orders : List OrderItem
  groupbys : Fragment
  distinct : Bool
  limit : Int
  offset : Int
  unions : List Builder
  errors : List Err
  debug : Bool  -- set by `Debug` (sqlb/query_builder_build.go:33-35)

/-! ## State and monad -/

/-- The mutable state reachable from a root context: the argument store, the `used` flags of the
properties of the current fragment context (0-based indices marked so far), the query builders
in memory, and what was logged by debug mode. -/
structure St where
  store : Store
  usedA : List Nat
  usedF : List Nat
  heap : List QB
  log : List Str

/-- Go code returning `(α, error)` that reads and writes the state; the state survives errors
and panics. -/
def M (α : Type) := St → Out α × St

namespace M
def pure (a : α) : M α := fun s => (.ok a, s)
def err (e : Err) : M α := fun s => (.err e, s)
def panic (p : Panic) : M α := fun s => (.panic p, s)
def bind (m : M α) (f : α → M β) : M β := fun s =>
  match m s with
  | (.ok a, s') => f a s'
  | (.err e, s') => (.err e, s')
  | (.panic p, s') => (.panic p, s')
  | (.oof, s') => (.oof, s')
/-- `if err != nil { return fmt.Errorf("…%w", err) }` -/
def wrapErr (w : Str) (m : M α) : M α := fun s =>
  match m s with
  | (.err e, s') => (.err (.wrap w e), s')
  | r => r
def get : M St := fun s => (.ok s, s)
def modify (f : St → St) : M Unit := fun s => (.ok (), f s)
def ofOut : Out α → M α := fun o s => (o, s)
end M

instance : Monad M where
  pure := M.pure
  bind := M.bind

end Sqlf
