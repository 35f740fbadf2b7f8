import Verif.Spec.Enforce
import Verif.Spec.Dest

/-
Rows that cannot stand in a table together.
-/
namespace Subsetter.Spec
open Subsetter

/-- `new` cannot be stored in a table that holds `r`: it has the same primary key, or the same values in the columns of a
unique constraint, none of them NULL. -/
def Collides (d : DestTable) (uniques : List (List Str)) (new r : Row) : Prop :=
  (d.pk ≠ [] ∧ ∀ c ∈ d.pk, r.get c = new.get c) ∨
  ∃ u ∈ uniques, (∀ c ∈ u, new.get c ≠ .null) ∧ ∀ c ∈ u, r.get c = new.get c

/-- The rows `rows` respect the primary key and the unique constraints of a table. -/
structure Respects (d : DestTable) (uniques : List (List Str)) (rows : List Row) : Prop where
  key : d.pk ≠ [] → KeysUnique d.pk rows
  unique : ∀ u ∈ uniques, Distinguishes u rows

/-- The rows to be stored for a batch. -/
def rowsFor (d : DestTable) (cols : List Str) (batch : List (List Val)) : List Row :=
  batch.map fun b => fullRow d (cols.zip b)

end Subsetter.Spec
