import Verif.Spec.MergeInto

/-
Merging samples with new, consecutive identifiers.
-/
namespace Subsetter.Spec
open Subsetter

/-- `r'` is the row `r` of table `n` with the identifier `i` it was given, moved, as key, and with the moved identifiers of
the rows it refers to in merged tables, where it refers to any; nothing else is changed.  `Smp` are the sampled rows of
each table and `ids` their identifiers. -/
structure RenumberedRow (p : Plan) (Smp : Key → List Row) (ids : Key → List Int) (off : Str → Int) (n : Str) (t : TableMeta)
    (x : Int × Row) (r' : Row) : Prop where
  columns : dkeys r' = t.columns
  key : ∀ c ∈ t.primaryKey, r'.get c = .int (x.1 + off n)
  refs : ∀ fk ∈ t.foreignKeys, fk.dstSchema ++ '.' :: fk.dstTable ∉ p.passthrough → ∀ c ∈ fk.columns,
    (x.2.get c = .null ∧ r'.get c = .null) ∨
    ∃ y ∈ (ids (fk.dstSchema, fk.dstTable)).zip (Smp (fk.dstSchema, fk.dstTable)), (∀ d ∈ fk.dstColumns, y.2.get d = x.2.get c) ∧
      r'.get c = .int (y.1 + off (fk.dstSchema ++ '.' :: fk.dstTable))
  others : ∀ c ∈ t.columns, c ∉ t.primaryKey →
    (∀ fk ∈ t.foreignKeys, fk.dstSchema ++ '.' :: fk.dstTable ∉ p.passthrough → c ∉ fk.columns) → r'.get c = x.2.get c

/-- The integers in a column are `a, …, b - 1`. -/
def KeysBetween (rows : List Row) (c : Str) (a b : Int) : Prop :=
  ∀ v, (∃ r ∈ rows, r.get c = .int v) ↔ a ≤ v ∧ v < b

end Subsetter.Spec
