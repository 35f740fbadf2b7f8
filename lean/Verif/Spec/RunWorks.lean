import Verif.Spec.RunKeys
import Verif.Spec.Filters

/-
What a run needs so that nothing fails, whatever is configured.
-/
namespace Subsetter.Spec
open Subsetter

variable {σ : Type}

/-- The filters of a table. -/
def filtersOf (C : RunConfig) (n : Str) : List (FilterCfg Val) := (dget C.filters n).getD []

/-- The configuration is sound for the tables of the source and of the destination (`schema`): nothing fails before
rows are copied. -/
structure Configured (C : RunConfig) (D : Setting σ) (p : Plan) (schema : Dict Str TableMeta) : Prop where
  /-- filters are given for proper names and fit the columns of their tables -/
  filters : ∀ n fs, (n, fs) ∈ C.filters → fs ≠ [] → (∃ k, parseTableName n = some k) ∧
    ∀ t, (n, t) ∈ D.srcDb → ∃ ch, constructFilter D.world t.columns fs = .ok ch
  /-- no table that is not multiplied refers to a multiplied column of the same name -/
  unblocked : 1 < C.mult.multiplier →
    ¬ Blocked (dbTables D.srcDb) C.mult (p.passthrough ++ C.mult.ignoreTables) (dkeys p.queries)
  /-- multiplied columns exist and are integers -/
  multiplied : ∀ n c, Multiplied C D p n c → ∀ t, (n, t) ∈ D.srcDb → c ∈ t.columns ∧ c ∈ t.intColumns
  compactNames : ∀ n cs, (n, cs) ∈ C.compact.columns → cs ≠ [] → ∃ k, parseTableName n = some k
  /-- keys to be compacted are not themselves part of foreign keys -/
  compactKeys : ∀ n t c, (n, t) ∈ D.srcDb → Selected D.fnmatch D.srcDb (dkeys p.queries) (t.schema, t.name) →
    t.primaryKey = [c] → c ∈ t.intColumns → n ∉ p.passthrough →
    (C.compact.primaryKeys = true ∨ (C.compact.autoIncrementKeys = true ∧ ∃ a, t.autoincrement = some a)) →
    ∀ fk ∈ t.foreignKeys, c ∉ fk.columns
  /-- foreign keys have no column twice, if identifiers are compacted on a database that cannot refer to a temporary
  table twice -/
  pairs : D.reopen = false → Compacts C → ∀ n ∈ dkeys p.queries, ∀ t, (n, t) ∈ D.srcDb → ∀ fk ∈ t.foreignKeys,
    fk.columns.Nodup ∧ fk.dstColumns.Nodup
  /-- merged tables exist in the destination and refer to planned tables -/
  merged : C.merge = true → ∀ n ∈ dkeys p.queries, n ∉ p.passthrough →
    (∃ k kd t td, Copied C D p schema n k kd t td) ∧
    ∀ t, (n, t) ∈ D.srcDb → ∀ fk ∈ t.foreignKeys, fk.dstSchema ++ '.' :: fk.dstTable ∈ dkeys p.queries

/-- Column `c` of the table `n`, which is `t` in the source and `td` in the destination, is shifted when merging. -/
def ShiftedColumn (C : RunConfig) (D : Setting σ) (p : Plan) (schema : Dict Str TableMeta) (n : Str) (t td : TableMeta)
    (c : Str) : Prop :=
  C.merge = true ∧ n ∉ p.passthrough ∧
    (td.primaryKey = [c] ∧ c ∈ td.intColumns ∨ ∃ kb d, KeyPair C D p schema t c kb d)

/-- The rows of table `n` can be transformed and the destination accepts them. -/
structure Writable (C : RunConfig) (D : Setting σ) (p : Plan) (schema : Dict Str TableMeta) (n : Str) (k kd : Key)
    (t td : TableMeta) : Prop where
  /-- filters do not fail for rows with values of the source or, if some are compacted, other identifiers -/
  runs : ∀ ch, constructFilter D.world t.columns (filtersOf C n) = .ok ch → ∀ r ∈ D.src k, ∀ row,
    List.Forall₂ (fun c v => v = r.get c ∨ (Compacts C ∧ Integral v)) t.columns row → ∀ s, ∃ out s', ch.run D.world row s = .ok (out, s')
  /-- identifiers that are multiplied or shifted are integers or NULL and not filtered -/
  numbers : ∀ c, Multiplied C D p n c ∨ ShiftedColumn C D p schema n t td c → c ∈ t.columns →
    c ∈ omitted (filtersOf C n) ∨ c ∈ (target D kd td).computed ∨
      ((∀ f ∈ filtersOf C n, c ∉ FilterCfg.writes f) ∧ ∀ r ∈ D.src k, Integral (r.get c))
  /-- the largest value of an automatically incremented column is computed on PostgreSQL -/
  auto : D.dialect = .postgresql → ∀ c, td.autoincrement = some c → c ∈ t.columns →
    c ∈ omitted (filtersOf C n) ∨ c ∈ (target D kd td).computed ∨
      ((∀ f ∈ filtersOf C n, c ∉ FilterCfg.writes f) ∧ (∀ r ∈ D.src k, ∃ v : Int, r.get c = .int v) ∧
        (Compacts C → ∀ fk ∈ t.foreignKeys, c ∉ fk.columns))
  columns : ∀ c ∈ t.columns, c ∉ omitted (filtersOf C n) → c ∈ td.columns
  key : ∀ c ∈ td.primaryKey, c ∈ t.columns ∧ c ∉ omitted (filtersOf C n) ∧ c ∉ (target D kd td).computed
  /-- conflict strategies other than `error` are not supported by all dialects -/
  dialect : D.dialect ≠ .generic ∨ strategyFor C p n = .error
  /-- generated columns cannot be replaced -/
  generated : strategyFor C p n ≠ .replace ∨ (target D kd td).computed = []

end Subsetter.Spec
