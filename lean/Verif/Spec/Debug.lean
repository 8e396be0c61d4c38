import Verif.Spec.QueryDoc
import Verif.Spec.QueryShape
import Verif.Spec.Interpolate
/-!
# Debug output

With `Debug()`, a query builder prints its query with the arguments filled in, as the last step of its build.
The print can only fail by a run-time panic: `Interpolate` panics on a placeholder without argument and on some nil
pointers (C48).
-/

namespace Sqlf.Spec

/-- Printing query `d` panics, `vs` being the values committed so far to store `s0`. -/
def printPanics (L : GoLib) (s0 : Store) (vs : List Val) (d : Doc) : Bool :=
  match commitAll s0 vs with
  | none => false
  | some (ps, st) =>
    match interpolate L rfc3339 (renderDoc ps d) st.args with
    | .panic _ => true
    | _ => false

/-- The last step of a build, `on` telling whether Debug is on. -/
def printStep (L : GoLib) (s0 : Store) (on : Bool) (d : Doc) : Sem := fun log =>
  if on && printPanics L s0 log d then (.panic, log) else (.ok d, log)

/-- The meaning of the query builder at `r` (compare `heapSem`), with debug output. -/
def heapSemD (L : GoLib) (parse : Str → Option (List Expr)) (bad : Val → Bool) (s0 : Store) (heap : List QB) :
    Nat → Nat → Sem
  | 0, _ => SemOf.fail .error
  | depth + 1, r => match heap[r]? with
    | none => SemOf.fail .panic
    | some b => SemOf.bind (qbSem (semQ L parse bad (heapSemD L parse bad s0 heap depth)) b) (printStep L s0 b.debug)

/-- The meaning of the query builder at `r` in a new context, with debug output. -/
def queryMeaningD (L : GoLib) (style : Style) (heap : List QB) (depth r : Nat) : Res Doc × List Val :=
  heapSemD L (fun s => (parse L s).toOption) (cannotCommit style) (Store.new style) heap (depth + 1) r []

/-- A query builder that can be used in other query builders (`Nestable`), with Debug or without. -/
def NestableD (L : GoLib) (b : QB) : Prop :=
  ∃ cs, Made L cs b ∧ Repeatable cs ∧ NoCodeL (partsOf b)

/-- `QueryAt`, with Debug or without. -/
def QueryAtD (L : GoLib) (heap : List QB) (depth r : Nat) : Prop :=
  ∃ b cs, heap[r]? = some b ∧ Made L cs b ∧ NoCodeL (partsOf b) ∧
    ∀ r' ∈ qbRefsL (partsOf b), NestedIn (NestableD L) heap depth r'

/-- The same query builders, `Debug` called on some of them. -/
def WithDebug : List QB → List QB → Prop := Pointwise fun b b' => b' = b ∨ Call.debug.apply b = .ok b'

/-- The queries of the query builders with Debug can be printed in the style: no text in them can be taken for a
marker. -/
def Printable (L : GoLib) (style : Style) (heap : List QB) : Prop :=
  ∀ r b, heap[r]? = some b → b.debug = true → ∀ depth log d vs,
    heapSem L (fun s => (parse L s).toOption) (cannotCommit style) heap depth r log = (.ok d, vs) →
    NoMarkers d

/-- The same query and arguments, or both fail in the same way. -/
def SameOutcome : Out (Str × List Val) → Out (Str × List Val) → Prop
  | .ok r, .ok r' => r = r'
  | .err e, .err e' => e.isInvalidIndex = e'.isInvalidIndex
  | .panic _, .panic _ => True
  | _, _ => False

end Sqlf.Spec
