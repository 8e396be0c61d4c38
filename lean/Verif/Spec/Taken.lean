import Verif.Model.Taken
import Verif.Spec.Memory
/-!
# Lists of arguments as values
-/

namespace Sqlf.Spec

/-- Contexts, and lists of arguments that are values: nothing is shared. -/
structure AVals where
  stores : List Store
  lists : List (Nat × List Val)

/-- One step, if lists were values. -/
def valuesStep (m : AVals) : AOp → AVals
  | .new style => { m with stores := m.stores ++ [Store.new style] }
  | .commit c v =>
    match m.stores[c]? with
    | none => m
    | some s => match s.commit v with
      | none => m
      | some (_, s) => { m with stores := m.stores.set c s }
  | .args c =>
    match m.stores[c]? with
    | none => m
    | some s => { m with lists := m.lists ++ [(c, s.args)] }
  | .assign t i x =>
    match m.lists[t]? with
    | none => m
    | some (c, l) => { m with lists := m.lists.set t (c, l.set i x) }
  | .append t xs =>
    match m.lists[t]? with
    | none => m
    | some (c, l) => { m with lists := m.lists ++ [(c, l ++ xs)] }

/-- The caller changes or appends to a list that comes from the context `c`. -/
def ListChanged (m : AVals) (c : Nat) : AOp → Prop
  | .assign t _ _ => ∃ l, m.lists[t]? = some (c, l)
  | .append t _ => ∃ l, m.lists[t]? = some (c, l)
  | _ => False

/-- The steps one after the other, with slices. -/
def slicesAfter (grow : Nat → Nat) (os : List AOp) : AMem := os.foldl (AOp.run grow) ⟨[], [], []⟩

/-- The steps one after the other, with values. -/
def valuesAfter (os : List AOp) : AVals := os.foldl valuesStep ⟨[], []⟩

/-- No list that comes from the context `c` is changed or appended to. -/
def Untouched (c : Nat) (os : List AOp) : Prop :=
  ∀ before o after, os = before ++ o :: after → ¬ ListChanged (valuesAfter before) c o

/-- The store of the context `c`, with what its slice holds. -/
def storeAt (m : AMem) (c : Nat) : Option Store := (m.stores[c]?).map fun s => ⟨s.isDollar, s.args.read m.vals, s.dict⟩

/-- The `t`-th list, with what it holds. -/
def listAt (m : AMem) (t : Nat) : Option (Nat × List Val) := (m.lists[t]?).map fun l => (l.1, l.2.read m.vals)

end Sqlf.Spec
