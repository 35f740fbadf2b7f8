import Verif.Spec.Run

/-
When compaction, multiplication and merging treat columns of foreign keys as the columns they refer to.
-/
namespace Subsetter.Spec
open Subsetter

variable {σ : Type}

/-- Some column may be compacted. -/
def Compacts (C : RunConfig) : Prop :=
  C.compact.primaryKeys = true ∨ C.compact.autoIncrementKeys = true ∨ ∃ n cs c, (n, cs) ∈ C.compact.columns ∧ c ∈ cs

/-- No column of a planned table refers to two columns, and no column that is referred to is itself part of a foreign
key. -/
structure SimpleRefs (D : Setting σ) (p : Plan) : Prop where
  one : ∀ n ∈ dkeys p.queries, ∀ t, (n, t) ∈ D.srcDb → ∀ fk ∈ t.foreignKeys, ∀ fk' ∈ t.foreignKeys, ∀ c d d',
    (c, d) ∈ fk.columns.zip fk.dstColumns → (c, d') ∈ fk'.columns.zip fk'.dstColumns →
      (fk.dstSchema, fk.dstTable) = (fk'.dstSchema, fk'.dstTable) ∧ d = d'
  roots : ∀ n ∈ dkeys p.queries, ∀ t, (n, t) ∈ D.srcDb → ∀ fk ∈ t.foreignKeys, ∀ tb,
    (fk.dstSchema ++ '.' :: fk.dstTable, tb) ∈ D.srcDb → ∀ d ∈ fk.dstColumns, ∀ fk' ∈ tb.foreignKeys, d ∉ fk'.columns

/-- Column `c` of the planned table `n` is multiplied. -/
def Multiplied (C : RunConfig) (D : Setting σ) (p : Plan) (n c : Str) : Prop :=
  1 < C.mult.multiplier ∧
    MultCol (dbTables D.srcDb) C.mult (p.passthrough ++ C.mult.ignoreTables) (dkeys p.queries) n c

/-- What compaction needs so that lookups are unambiguous. -/
structure LookupsFollow (C : RunConfig) (D : Setting σ) (p : Plan) : Prop where
  infer : C.infer = .none
  simple : Compacts C → SimpleRefs D p
  /-- foreign keys of planned tables lead to planned tables -/
  closed : Compacts C → ∀ n ∈ dkeys p.queries, ∀ t, (n, t) ∈ D.srcDb → ∀ fk ∈ t.foreignKeys,
    fk.dstSchema ++ '.' :: fk.dstTable ∈ dkeys p.queries
  /-- a column compacted by name is not part of a foreign key, and if one refers to it, it is the primary key -/
  named : ∀ n cs, (n, cs) ∈ C.compact.columns → ∀ c ∈ cs, ∀ t, (n, t) ∈ D.srcDb →
    (∀ fk ∈ t.foreignKeys, c ∉ fk.columns) ∧
    (t.primaryKey = [c] ∨ ∀ n' t', (n', t') ∈ D.srcDb → ∀ fk ∈ t'.foreignKeys,
      fk.dstSchema ++ '.' :: fk.dstTable = n → c ∉ fk.dstColumns)

/-- What is to hold of a foreign key of a merged table: it leads by a single column to an integer key of a merged table,
or else no column involved is such a key. -/
def MergedAlike (p : Plan) (n nb : Str) (td tb tdb : TableMeta) (fk : ForeignKey) : Prop :=
  (n ∉ p.passthrough ∧ nb ∉ p.passthrough ∧ ∃ c d, fk.columns = [c] ∧ fk.dstColumns = [d] ∧ tb.primaryKey = [d] ∧
    tdb.primaryKey = [d] ∧ d ∈ tdb.intColumns) ∨
  ((nb ∈ p.passthrough ∨ ∀ d, tdb.primaryKey = [d] → d ∈ tdb.intColumns → d ∉ fk.dstColumns ∧ tb.primaryKey = [d]) ∧
   (n ∈ p.passthrough ∨ ∀ c ∈ fk.columns, td.primaryKey = [c] → c ∉ td.intColumns))

/-- What the configuration has to satisfy so that references survive, in terms of the tables of the source and those
of the destination (`schema`). -/
structure IdsFollow (C : RunConfig) (D : Setting σ) (p : Plan) (schema : Dict Str TableMeta) : Prop where
  infer : C.infer = .none
  simple : Compacts C ∨ C.merge = true → SimpleRefs D p
  /-- foreign keys of planned tables lead to planned tables -/
  closed : Compacts C → ∀ n ∈ dkeys p.queries, ∀ t, (n, t) ∈ D.srcDb → ∀ fk ∈ t.foreignKeys,
    fk.dstSchema ++ '.' :: fk.dstTable ∈ dkeys p.queries
  /-- a column compacted by name is not part of a foreign key, and if one refers to it, it is the primary key -/
  named : ∀ n cs, (n, cs) ∈ C.compact.columns → ∀ c ∈ cs, ∀ t, (n, t) ∈ D.srcDb →
    (∀ fk ∈ t.foreignKeys, c ∉ fk.columns) ∧
    (t.primaryKey = [c] ∨ ∀ n' t', (n', t') ∈ D.srcDb → ∀ fk ∈ t'.foreignKeys,
      fk.dstSchema ++ '.' :: fk.dstTable = n → c ∉ fk.dstColumns)
  /-- a column is multiplied if and only if the one it refers to is, and then both tables are -/
  mult : ∀ n ∈ dkeys p.queries, ∀ t, (n, t) ∈ D.srcDb → ∀ fk ∈ t.foreignKeys,
    fk.dstSchema ++ '.' :: fk.dstTable ∈ dkeys p.queries → ∀ e ∈ fk.columns.zip fk.dstColumns,
    (Multiplied C D p n e.1 ↔ Multiplied C D p (fk.dstSchema ++ '.' :: fk.dstTable) e.2) ∧
    (Multiplied C D p n e.1 → timesWritten C p n = timesWritten C p (fk.dstSchema ++ '.' :: fk.dstTable))
  merge : C.merge = true → ∀ n k kd t td, Copied C D p schema n k kd t td → ∀ fk ∈ td.foreignKeys, ∀ nb kb tb tdb,
    Copied C D p schema nb kb (fk.dstSchema, fk.dstTable) tb tdb → MergedAlike p n nb td tb tdb fk

theorem IdsFollow.lookups {C : RunConfig} {D : Setting σ} {p : Plan} {schema : Dict Str TableMeta}
    (h : IdsFollow C D p schema) : LookupsFollow C D p :=
  ⟨h.infer, fun g => h.simple (.inl g), h.closed, h.named⟩

/-- Column `c` of table `n` is written as it leaves the filters: where rows are multiplied it is neither a key nor listed, and
where they are merged neither the key of the destination nor a reference. -/
structure AsFiltered (C : RunConfig) (n : Str) (t td : TableMeta) (c : Str) : Prop where
  mult : 1 < C.mult.multiplier → C.infer = .none ∧ c ∉ t.primaryKey ∧ (∀ fk ∈ t.foreignKeys, c ∉ fk.columns) ∧
    ∀ cs, dget C.mult.extraColumns n = some cs → c ∉ cs
  merge : C.merge = true → C.infer = .none ∧ td.primaryKey ≠ [c] ∧ ∀ fk ∈ t.foreignKeys, c ∉ fk.columns

end Subsetter.Spec
