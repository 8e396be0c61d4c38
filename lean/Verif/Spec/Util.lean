import Verif.Model.Util
/-!
# Small specifications for package util
-/

namespace Sqlf.Spec

/-- The elements of a value that is a slice or an array, or a pointer to one. -/
def listElems : Val → Option (List Val)
  | .slice _ es => some es
  | .array _ es => some es
  | .stringer _ _ _ es => es
  | .valuer _ _ _ es => es
  | .ptr _ (.slice _ es) => some es
  | .ptr _ (.array _ es) => some es
  | .ptr _ (.stringer _ _ _ es) => es
  | .ptr _ (.valuer _ _ _ es) => es
  | _ => none

/-- One-level flattening: list values are replaced by their elements. -/
def flatten (vs : List Val) : List Val := vs.flatMap fun v => (listElems v).getD [v]

/-- `v` is a nil `*[]T` for one of the element types with a fast path. -/
def isNilSlicePtr : Val → Bool
  | .nilPtr _ true => true
  | _ => false

/-- Reading one SQL string literal from the front of a text: after the opening quote, a doubled
quote stands for one quote, a single quote ends the literal.  Result: value and rest. -/
def readBody : Str → Option (Str × Str)
  | [] => none
  | [b] => if b = 0x27 then some ([], []) else none
  | b :: c :: t =>
    if b = 0x27 then
      if c = 0x27 then (readBody t).map fun r => (0x27 :: r.1, r.2)
      else some ([], c :: t)
    else (readBody (c :: t)).map fun r => (b :: r.1, r.2)

def readLiteral : Str → Option (Str × Str)
  | [] => none
  | b :: t => if b = 0x27 then readBody t else none

/-- The text a value stands for: a string, what a Stringer says, or the text a Valuer gives. -/
def textOf : Val → Option Str
  | .str _ s => some s
  | .stringer _ _ t _ => some t
  | .valuer _ _ (some v) _ => textOf v
  | _ => none

end Sqlf.Spec
