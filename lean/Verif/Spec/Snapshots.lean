import Verif.Spec.Planner

/-
Vocabulary for a source that changes while it is sampled: `snap i` is what the `i`-th statement sees.
-/
namespace Subsetter.Spec

/-- Foreign keys from `a` to `b` hold at all times: a row without NULL in the key refers to a row. -/
def FkHolds (snap : Nat → Key → List Row) (a : Key) (fk : ForeignKey) (b : Key) : Prop :=
  ∀ i, ∀ r ∈ snap i a, (∀ c ∈ fk.columns, r.get c ≠ .null) → ∃ m ∈ snap i b, Refers fk.columns fk.dstColumns r m

/-- Values of the columns `cols` present in table `b` stay: rows may be added, and changed in other columns. -/
def KeysStay (snap : Nat → Key → List Row) (b : Key) (cols : List Str) : Prop :=
  ∀ i j, i ≤ j → ∀ m ∈ snap i b, ∃ m' ∈ snap j b, ∀ c ∈ cols, m'.get c = m.get c

/-- What is written for `a` and `b` satisfies the key. -/
def WrittenFk (out : List (Key × List Row)) (a : Key) (fk : ForeignKey) (b : Key) : Prop :=
  ∀ ra rb, (a, ra) ∈ out → (b, rb) ∈ out → ∀ r ∈ ra, (∀ c ∈ fk.columns, r.get c ≠ .null) →
    ∃ m ∈ rb, Refers fk.columns fk.dstColumns r m

end Subsetter.Spec
