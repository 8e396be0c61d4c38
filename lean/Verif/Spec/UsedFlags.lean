import Verif.Model.UsedFlags
/-!
# What the flags of properties should say
-/

namespace Sqlf

/-- The call asks for the property at `k` (from 0): it builds it, or reports it as used. -/
def MarkOp.AsksFor (k : Nat) : MarkOp → Prop
  | .build _ i => i = (k : Int) + 1
  | .buildItem _ j => j = k
  | .reportUsed j => j = k
  | .used _ => False

/-- The call builds something. -/
def MarkOp.isBuild : MarkOp → Bool
  | .build _ _ => true
  | .buildItem _ _ => true
  | _ => false

/-- What the building calls among `ops` returned, given what all of them returned. -/
def buildResults : List MarkOp → List MarkRes → List MarkRes
  | op :: ops, r :: rs => if op.isBuild then r :: buildResults ops rs else buildResults ops rs
  | _, _ => []

end Sqlf
