import Verif.Spec.RunRefs
import Verif.Spec.Planner

/-
When the primary keys a run writes differ from each other and from those the destination holds.
-/
namespace Subsetter.Spec
open Subsetter

variable {σ : Type}

/-- The column holds integers, none of them negative. -/
def Naturals (rows : List Row) (c : Str) : Prop := ∀ r ∈ rows, ∃ v : Int, 0 ≤ v ∧ r.get c = .int v

/-- Column `c` of the source table `t` refers by itself to the primary key of a table that is merged into table `kb` of
the destination, which has the integer primary key `d`. -/
def KeyPair (C : RunConfig) (D : Setting σ) (p : Plan) (schema : Dict Str TableMeta) (t : TableMeta) (c : Str) (kb : Key)
    (d : Str) : Prop :=
  ∃ fk ∈ t.foreignKeys, ∃ k0 tb tdb, fk.columns = [c] ∧ fk.dstColumns = tb.primaryKey ∧
    Copied C D p schema (fk.dstSchema ++ '.' :: fk.dstTable) k0 kb tb tdb ∧
    fk.dstSchema ++ '.' :: fk.dstTable ∉ p.passthrough ∧ tdb.primaryKey = [d] ∧ d ∈ tdb.intColumns

/-- Table `n` is merged, and a column of its primary key is shifted past all values the destination holds: it is the
whole primary key or refers to one that is shifted, and what the destination holds respects these references. -/
def Past (C : RunConfig) (D : Setting σ) (p : Plan) (S : DbState) (schema : Dict Str TableMeta) (n : Str) (k kd : Key)
    (t td : TableMeta) : Prop :=
  C.merge = true ∧ n ∉ p.passthrough ∧ 0 ≤ C.compact.startKey ∧ ∃ c ∈ t.primaryKey, Naturals (D.src k) c ∧
    (td.primaryKey = [c] ∧ c ∈ td.intColumns ∨ ∃ kb d, KeyPair C D p schema t c kb d) ∧
    ∀ kb d, KeyPair C D p schema t c kb d → ∀ r ∈ S kd, r.get c ≠ .null → ∃ q ∈ S kb, q.get d = r.get c

/-- What the keys of a table need so that those written meet no other. -/
structure KeysApart (C : RunConfig) (D : Setting σ) (cfg : PlannerConfig) (T : Tables) (p : Plan) (S : DbState)
    (schema : Dict Str TableMeta) (n : Str) (k kd : Key) (t td : TableMeta) : Prop where
  /-- the primary key has the same columns on both sides -/
  same : ∀ c, c ∈ td.primaryKey ↔ c ∈ t.primaryKey
  /-- no filter changes it and the destination does not generate it -/
  kept : ∀ c ∈ t.primaryKey, KeptColumn C D n t kd td c
  /-- if rows are multiplied, so is an integer column of the primary key -/
  copies : 1 < timesWritten C p n → ∃ c ∈ t.primaryKey, Multiplied C D p n c ∧ ∀ r ∈ D.src k, ∃ v, r.get c = .int v
  /-- the destination holds nothing, or the keys go past what it holds -/
  apart : S kd = [] ∨ C.truncate = true ∨ Past C D p S schema n k kd t td
  /-- if identifiers are compacted, references within the primary key are those the planner follows -/
  found : Compacts C → ∀ fk ∈ t.foreignKeys, (∃ c ∈ fk.columns, c ∈ t.primaryKey) →
    (∀ c ∈ fk.columns, c ∈ t.primaryKey) ∧ UsedFk cfg T k fk (fk.dstSchema, fk.dstTable)
  /-- and the primary key has no NULL -/
  notNull : Compacts C → ∀ r ∈ D.src k, ∀ c ∈ t.primaryKey, r.get c ≠ .null

end Subsetter.Spec
