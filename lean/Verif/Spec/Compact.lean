import Verif.Model.Compact
import Verif.Spec.Plan

/-
Vocabulary for identifier compaction.
-/
namespace Subsetter.Spec
open Subsetter

/-- The numbers are `start, …, start + N - 1` in some order. -/
def FillsFrom (start : Int) (ids : List Int) : Prop :=
  ids.Nodup ∧ ∀ x, x ∈ ids ↔ start ≤ x ∧ x < start + ids.length

/-- Column `c` of table `k` is compacted. -/
def IsCompacted (compact : Dict Key (List Str)) (k : Key) (c : Str) : Prop := ∃ cols, dget compact k = some cols ∧ c ∈ cols

/-- A foreign key of table `k` pairs its column `c` with the compacted column `dc` of table `d`. -/
def PointsTo (T : Tables) (compact : Dict Key (List Str)) (k : Key) (c : Str) (d : Key) (dc : Str) : Prop :=
  ∃ t fk, dget T k = some t ∧ fk ∈ t.foreignKeys ∧ (fk.dstSchema, fk.dstTable) = d ∧
    (c, dc) ∈ fk.columns.zip fk.dstColumns ∧ IsCompacted compact d dc

/-- `out` is the row `r` of table `k`, whose identifier is `id`, after compaction; `S` are the sampled rows of
each table and `ids` their identifiers. -/
structure CompactedRow (T : Tables) (compact : Dict Key (List Str)) (S : Key → List Row) (ids : Key → List Int)
    (k : Key) (columns : List Str) (r : Row) (id : Int) (out : Row) : Prop where
  shape : out = r ∨ dkeys out = columns
  own : ∀ c ∈ columns, IsCompacted compact k c → out.get c = .int id
  found : ∀ c ∈ columns, ¬ IsCompacted compact k c → ∀ d dc, PointsTo T compact k c d dc →
    (∀ d' dc', PointsTo T compact k c d' dc' → d' = d ∧ dc' = dc) →
    ∀ j m, (j, m) ∈ (ids d).zip (S d) → r.get c ≠ .null → r.get c = m.get dc → out.get c = .int j
  lost : ∀ c ∈ columns, ¬ IsCompacted compact k c → ∀ d dc, PointsTo T compact k c d dc →
    (∀ d' dc', PointsTo T compact k c d' dc' → d' = d ∧ dc' = dc) →
    (∀ m ∈ S d, r.get c = .null ∨ r.get c ≠ m.get dc) → out.get c = .null
  kept : ∀ c ∈ columns, ¬ IsCompacted compact k c → (∀ d dc, ¬ PointsTo T compact k c d dc) → out.get c = r.get c

/-- No value but NULL occurs twice in a column. -/
def UniqueIn (rows : List Row) (c : Str) : Prop :=
  rows.Pairwise fun r r' => r.get c ≠ .null → r.get c ≠ r'.get c

/-- No foreign key of the table involves two compacted columns. -/
def OneLookupEach (T : Tables) (compact : Dict Key (List Str)) (k : Key) : Prop :=
  ∀ t, dget T k = some t → ∀ fk ∈ t.foreignKeys, fk.columns.Nodup ∧
    ∀ e ∈ fk.columns.zip fk.dstColumns, ∀ e' ∈ fk.columns.zip fk.dstColumns,
      IsCompacted compact (fk.dstSchema, fk.dstTable) e.2 →
      IsCompacted compact (fk.dstSchema, fk.dstTable) e'.2 → e = e'

/-- A pair of columns of a foreign key from table `k` to table `d` that compaction treats alike: the column of
`d` is compacted and the one of `k` refers to nothing else that is, or neither is touched. -/
def PairSafe (T : Tables) (compact : Dict Key (List Str)) (k d : Key) (e : Str × Str) : Prop :=
  ¬ IsCompacted compact k e.1 ∧
  ((IsCompacted compact d e.2 ∧ PointsTo T compact k e.1 d e.2 ∧
      ∀ d' dc', PointsTo T compact k e.1 d' dc' → d' = d ∧ dc' = e.2) ∨
   (¬ IsCompacted compact d e.2 ∧ (∀ d' dc', ¬ PointsTo T compact d e.2 d' dc') ∧
      ∀ d' dc', ¬ PointsTo T compact k e.1 d' dc'))

/-- Column `c` of table `k` is configured by name. -/
def NamedColumn (T : Tables) (pass : List Str) (cfg : CompactConfig) (k : Key) (c : Str) : Prop :=
  ∃ table cols, (table, cols) ∈ cfg.columns ∧ c ∈ cols ∧ parseTableName table = some k ∧ (dget T k).isSome ∧ table ∉ pass

/-- Column `c` is the integer primary key of table `k`, to be compacted by the settings. -/
def KeyColumn (T : Tables) (pass : List Str) (cfg : CompactConfig) (k : Key) (c : Str) : Prop :=
  ∃ t, (k, t) ∈ T ∧ t.primaryKey = [c] ∧ c ∈ t.intColumns ∧ k.1 ++ '.' :: k.2 ∉ pass ∧
    (cfg.primaryKeys = true ∨ (cfg.autoIncrementKeys = true ∧ ∃ a, t.autoincrement = some a))

end Subsetter.Spec
