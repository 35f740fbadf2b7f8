import Verif.Spec.RunKeys

/-
When values that are unique in the source are unique in the destination.
-/
namespace Subsetter.Spec
open Subsetter

variable {σ : Type}

/-- What a unique constraint on the columns `u` demands: no two rows agree in all of them, rows with NULL aside. -/
def Distinguishes (u : List Str) (rows : List Row) : Prop :=
  rows.Pairwise fun r r' => (∀ c ∈ u, r.get c ≠ .null) → ∃ c ∈ u, r.get c ≠ r'.get c

/-- Table `n` is merged, and its column `c`, which has no negative values, is shifted past all values the destination
holds: it is the primary key or refers to one that is shifted, and what the destination holds respects these
references. -/
def PastColumn (C : RunConfig) (D : Setting σ) (p : Plan) (S : DbState) (schema : Dict Str TableMeta) (n : Str)
    (k kd : Key) (t td : TableMeta) (c : Str) : Prop :=
  C.merge = true ∧ n ∉ p.passthrough ∧ 0 ≤ C.compact.startKey ∧
    (∀ r ∈ D.src k, r.get c = .null ∨ ∃ v : Int, 0 ≤ v ∧ r.get c = .int v) ∧
    (td.primaryKey = [c] ∧ c ∈ td.intColumns ∨ ∃ kb d, KeyPair C D p schema t c kb d) ∧
    ∀ kb d, KeyPair C D p schema t c kb d → ∀ r ∈ S kd, r.get c ≠ .null → ∃ q ∈ S kb, q.get d = r.get c

/-- Identifiers are copied as they are, and a row of the source that agrees with one of the destination in the columns
`u` is the same row: primary keys agree as well, and the strategy lets only one of the two remain. -/
def SameRows (C : RunConfig) (D : Setting σ) (p : Plan) (S : DbState) (n : Str) (k kd : Key) (t td : TableMeta)
    (u : List Str) : Prop :=
  SameIds C ∧ ∀ r ∈ S kd, ∀ q ∈ D.src k, (∀ c ∈ u, r.get c ≠ .null ∧ r.get c = q.get c) →
    strategyFor C p n ≠ .error ∧ td.primaryKey ≠ [] ∧
      ∀ c ∈ td.primaryKey, KeptColumn C D n t kd td c ∧ r.get c = q.get c

/-- What the columns `u` of a table need so that rows written differ in them from each other and from those present. -/
structure StaysUnique (C : RunConfig) (D : Setting σ) (p : Plan) (S : DbState) (schema : Dict Str TableMeta) (n : Str)
    (k kd : Key) (t td : TableMeta) (u : List Str) : Prop where
  /-- they distinguish rows of the source, and those present -/
  source : Distinguishes u (D.src k)
  before : Distinguishes u (S kd)
  /-- no filter changes them and the destination does not generate them -/
  kept : ∀ c ∈ u, KeptColumn C D n t kd td c
  /-- if rows are multiplied, so is an integer column among them -/
  copies : 1 < timesWritten C p n → ∃ c ∈ u, Multiplied C D p n c ∧
    ∀ r ∈ D.src k, r.get c = .null ∨ ∃ v, r.get c = .int v
  /-- the destination holds nothing, or what is written differs from what it holds -/
  apart : S kd = [] ∨ C.truncate = true ∨ (∃ c ∈ u, PastColumn C D p S schema n k kd t td c) ∨
    SameRows C D p S n k kd t td u

/-- What column `c` of a table needs to have no NULL. -/
structure StaysFilled (C : RunConfig) (D : Setting σ) (cfg : PlannerConfig) (T : Tables) (S : DbState) (n : Str)
    (k kd : Key) (t td : TableMeta) (c : Str) : Prop where
  /-- there is none in the source, nor among the rows present -/
  source : ∀ r ∈ D.src k, r.get c ≠ .null
  before : ∀ r ∈ S kd, r.get c ≠ .null
  /-- no filter changes it and the destination does not generate it -/
  kept : KeptColumn C D n t kd td c
  /-- if identifiers are compacted, the rows it refers to are sampled -/
  found : Compacts C → ∀ fk ∈ t.foreignKeys, c ∈ fk.columns →
    (∀ r ∈ D.src k, ∀ c' ∈ fk.columns, r.get c' ≠ .null) ∧ UsedFk cfg T k fk (fk.dstSchema, fk.dstTable)

end Subsetter.Spec
