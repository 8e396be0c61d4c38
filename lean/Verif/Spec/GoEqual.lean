import Verif.Model.Val
/-!
# Go's `==` and map keys

Written from the Go specification ("Comparison operators", "Map types"), not from the model's
functions: two values of interface type are equal if they have identical dynamic types and equal
dynamic values; a NaN equals nothing; arrays are compared element by element; pointers and opaque
values are compared by identity.  A slice, or an array holding one, cannot be a map key.
-/

namespace Sqlf.Spec

mutual
/-- `a == b` for two values stored in an `any`. -/
inductive GoEqual : Val → Val → Prop where
  | nil : GoEqual .nil .nil
  | bool (ty b) : GoEqual (.bool ty b) (.bool ty b)
  | int (ty i) : GoEqual (.int ty i) (.int ty i)
  | uint (ty n) : GoEqual (.uint ty n) (.uint ty n)
  /-- The bits may differ: `0 == -0`. -/
  | float (ty val bits bits') : GoEqual (.float ty ⟨false, val, bits⟩) (.float ty ⟨false, val, bits'⟩)
  | str (ty s) : GoEqual (.str ty s) (.str ty s)
  | time (id z z') : GoEqual (.time id z) (.time id z')
  | stringer (id h h' t t' es es') : GoEqual (.stringer id h t es) (.stringer id h' t' es')
  | valuer (id h h' r r' es es') : GoEqual (.valuer id h r es) (.valuer id h' r' es')
  | array (ty es es') : GoEqualL es es' → GoEqual (.array ty es) (.array ty es')
  | ptr (id v v') : GoEqual (.ptr id v) (.ptr id v')
  | nilPtr (ty f f') : GoEqual (.nilPtr ty f) (.nilPtr ty f')
  | nilRecv (ty) : GoEqual (.nilRecv ty) (.nilRecv ty)
  | other (id h h') : GoEqual (.other id h) (.other id h')
/-- Same length and equal one by one. -/
inductive GoEqualL : List Val → List Val → Prop where
  | nil : GoEqualL [] []
  | cons (v w vs ws) : GoEqual v w → GoEqualL vs ws → GoEqualL (v :: vs) (w :: ws)
end

/-- The value cannot be a map key: hashing it panics. -/
inductive Unhashable : Val → Prop where
  | slice (ty es) : Unhashable (.slice ty es)
  | array (ty es v) : v ∈ es → Unhashable v → Unhashable (.array ty es)
  | stringer (id t es) : Unhashable (.stringer id false t es)
  | valuer (id r es) : Unhashable (.valuer id false r es)
  | other (id) : Unhashable (.other id false)

end Sqlf.Spec
