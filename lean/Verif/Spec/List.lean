/-!
List relations used in statements.
-/

namespace Verif.Spec

/-- Two lists of the same length, related element by element. -/
inductive All₂ (R : α → β → Prop) : List α → List β → Prop where
  | nil : All₂ R [] []
  | cons {a b as bs} : R a b → All₂ R as bs → All₂ R (a :: as) (b :: bs)

end Verif.Spec
