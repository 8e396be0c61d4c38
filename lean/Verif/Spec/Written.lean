import Verif.Spec.QueryDoc
/-!
# The document of a built query, for all kinds of builders without user code
-/

namespace Sqlf.Spec

/-- `BuildQuery` of `b` writes the document `d` and commits the values `vs`: `b` is a builder with query builders in
it that can be repeated, or a query builder with such query builders in it. -/
def Written (L : GoLib) (style : Style) (heap : List QB) (b : Builder) (d : Doc) (vs : List Val) : Prop :=
  ∃ depth, (NoCode b ∧ (∀ r ∈ qbRefs b, NestedIn (Nestable L) heap depth r) ∧
      builderMeaning L style heap depth b = (.ok d, vs)) ∨
    ∃ r, b = .qb r ∧ QueryAt L heap depth r ∧ queryMeaning L style heap depth r = (.ok d, vs)

end Sqlf.Spec
