import Verif.Model.Memory
/-!
# The lists that `Context.Args` and `BuildQuery` return

`Store` of Model/Val.lean has the arguments as a list.  Here they are a Go slice, and `Args` hands out this slice.
-/

namespace Sqlf

/-- `questionArgStore` and `dollarArgStore` (context_args.go:25-51) with their slice -/
structure SStore where
  isDollar : Bool
  args : Slice
  dict : List (Val × Nat)

/-- The arrays, the argument stores of all contexts, and the slices the caller has, each with the number of the
context it comes from (which only the specification looks at). -/
structure AMem where
  vals : List (List Val)
  stores : List SStore
  lists : List (Nat × Slice)

/-- What programs do with contexts and the lists of arguments: `NewContext(style)`, `ctx.CommitArg(v)` for the `c`-th
context, `l := ctx.Args()`; for the `t`-th list `l[i] = x` and `l' := append(l, xs...)`.  `BuildQuery` is `new`, any
number of `commit`s, and `args`, and nobody has its context afterwards (build.go:14-22, sqlb/query_builder_build.go:17-25). -/
inductive AOp where
  | new (style : Style)
  | commit (c : Nat) (v : Val)
  | args (c : Nat)
  | assign (t i : Nat) (x : Val)
  | append (t : Nat) (xs : List Val)

/-- `CommitArg` (context_args.go:37-40, 57-65); a panic leaves everything as it was -/
def SStore.commit (grow : Nat → Nat) (A : List (List Val)) (s : SStore) (v : Val) : List (List Val) × SStore :=
  if s.isDollar then
    if !v.hashable then (A, s)
    else
      match dictLookup s.dict v with
      | some _ => (A, s)
      | none =>
        let i := s.args.len + 1
        let (A, args) := s.args.append grow .nil A [v]
        (A, { s with dict := (v, i) :: s.dict, args })
  else
    let (A, args) := s.args.append grow .nil A [v]
    (A, { s with args })

/-- One step: `newEmptyContext` (context.go:29-40), `CommitArg` (context_args.go:16-18), `Args`
(context_args.go:8-10, 33-35, 53-55), and Go's assignment and `append` -/
def AOp.run (grow : Nat → Nat) (m : AMem) : AOp → AMem
  | .new style => { m with stores := m.stores ++ [⟨style = dollar, .nil, []⟩] }
  | .commit c v =>
    match m.stores[c]? with
    | none => m
    | some s =>
      let (vals, s) := s.commit grow m.vals v
      { m with vals, stores := m.stores.set c s }
  | .args c =>
    match m.stores[c]? with
    | none => m
    | some s => { m with lists := m.lists ++ [(c, s.args)] }
  | .assign t i x =>
    match m.lists[t]? with
    | none => m
    | some (_, l) => if i < l.len then { m with vals := m.vals.modify l.arr (·.set (l.off + i) x) } else m
  | .append t xs =>
    match m.lists[t]? with
    | none => m
    | some (c, l) =>
      let (vals, l) := l.append grow .nil m.vals xs
      { m with vals, lists := m.lists ++ [(c, l)] }

end Sqlf
