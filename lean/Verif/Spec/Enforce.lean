import Verif.Spec.Unique

/-
What a database enforces besides primary keys.
-/
namespace Subsetter.Spec
open Subsetter

/-- The contents `X` respect the foreign keys and unique constraints of the tables `schema`. -/
structure Enforced (schema : Dict Str TableMeta) (X : DbState) : Prop where
  refs : Intact schema X
  unique : ∀ m t, (m, t) ∈ schema → ∀ u ∈ t.uniques, Distinguishes u (X (t.schema, t.name))

end Subsetter.Spec
