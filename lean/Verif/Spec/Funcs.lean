import Verif.Model.Funcs
/-!
# Small specifications for preprocessing functions
-/

namespace Sqlf.Spec

/-- Names of preprocessing functions: not empty, letters and underscores only. -/
def AllowedName (L : GoLib) (name : Str) : Prop :=
  name ≠ [] ∧ ∀ r ∈ runes name, r = 0x5F ∨ isLetterRune L r = true

/-- Parameter types of preprocessing functions: numbers, strings, booleans of any named type. -/
def AllowedParam (t : GoType) : Prop :=
  (∃ k n, t = .num k n) ∨ (∃ n, t = .string n) ∨ (∃ n, t = .bool n)

/-- Signatures of preprocessing functions: results `()`, `(string)` or `(string, error)`;
parameters of an allowed type, except that the first may be the context; a variadic last
parameter counts by its element type. -/
def AllowedSignature (ins : List GoType) (variadic : Bool) (outs : List GoType) : Prop :=
  (outs = [] ∨ outs = [.string 0] ∨ outs = [.string 0, .error]) ∧
  ∀ (i : Nat) (t : GoType), ins[i]? = some t →
    (i = 0 ∧ t = .context) ∨
    AllowedParam (if variadic = true ∧ i + 1 = ins.length then t.elem else t)

/-- An entry of a function map that may be registered. -/
def AllowedEntry (L : GoLib) (name : Str) : FuncVal → Prop
  | .notFunc => False
  | .func ins variadic outs _ => AllowedName L name ∧ AllowedSignature ins variadic outs

/-- The keys of a Go map are distinct. -/
def IsMap (fm : FuncMap) : Prop := (fm.map (·.1)).Nodup

/-- A literal of a call fits a parameter type. -/
def literalFits : GoType → CallArg → Bool
  | .num _ _, .num _ => true
  | .string _, .str _ => true
  | .bool _, .bool _ => true
  | _, _ => false

/-- Number of parameters a call has to supply (all but the context). -/
def paramCount (f : FuncInfo) : Nat :=
  f.ins.length - (if f.ins.head? = some .context then 1 else 0)

/-- The type of the `k`-th parameter (counted from 0, without a leading context) of a function,
if it has one; the last parameter of a variadic function is repeated. -/
def paramType (f : FuncInfo) (k : Nat) : Option GoType :=
  let ts := if f.ins.head? = some .context then f.ins.tail else f.ins
  if f.variadic ∧ ts.length ≤ k + 1 then ts.getLast?.map .elem else ts[k]?

/-- A call supplies as many arguments as the function has parameters; a variadic function may
get any number for its last parameter. -/
def countFits (f : FuncInfo) (nArgs : Nat) : Prop :=
  if f.variadic then paramCount f ≤ nArgs + 1 else nArgs = paramCount f

/-- `c'` was made from `c` with ContextWithFuncs, once for each of the function maps. -/
inductive Derives (L : GoLib) : Ctx → List FuncMap → Ctx → Prop where
  | nil (c : Ctx) : Derives L c [] c
  | cons {c c' c'' : Ctx} {fm : FuncMap} {fms : List FuncMap} (hm : IsMap fm) (h : contextWithFuncs L c fm = .ok c')
      (hs : Derives L c' fms c'') : Derives L c (fm :: fms) c''

/-- A builder as the fragment of a fragment, and so on. -/
def inside : Nat → Builder → Builder
  | 0, b => b
  | n + 1, b => .frag (.Ff (lit "#f1") [inside n b])

end Sqlf.Spec
