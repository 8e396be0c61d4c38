import Verif.Spec.Query
/-!
# Completely specified queries
-/

namespace Sqlf.Spec

/-- A CTE or a member of a union that does not panic by itself: one of `n` query builders, or a
builder whose build never panics. -/
def SafePart (L : GoLib) (n : Nat) (b : Builder) : Prop :=
  (∃ r, r < n ∧ b = .qb r) ∨
  ∀ ctx, newContext L = some ctx → ∀ s p s', ¬ BuildsTo L ctx b s (.panic p, s')

/-- The calls specify a query completely: there is a table, columns and conditions are not nil,
names of tables are no templates, CTEs and unions do not panic by themselves, and debug mode is
off. -/
structure Complete (L : GoLib) (n : Nat) (cs : List Call) : Prop where
  table : ∃ c ∈ cs, ∃ r, gives c = some r
  columns : noNilL (expressionsOf cs) = true
  conditions : ∀ c ∈ cs, ∀ r, gives c = some r → noNil (rowBuilder r) = true
  names : ∀ c ∈ cs, ∀ r, gives c = some r → 0x23 ∉ r.names.name ∧ 0x23 ∉ r.names.alias
  ctes : ∀ c ∈ declaredBy cs, SafePart L n c.builder
  unions : ∀ b ∈ unitedWith cs, SafePart L n b
  quiet : debugIn cs = false

end Sqlf.Spec
