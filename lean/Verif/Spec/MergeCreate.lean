import Verif.Spec.MergeCompact

/-
Merging samples into a database whose tables are created when they are needed.
-/
namespace Subsetter.Spec
open Subsetter

variable {σ : Type}

/-- What runs that fill one database from one source have in common: the tables of the source, the renaming of tables, the
matching of names, the generated columns and the dialect of the destination, the names of the tables that are sampled and
of those that are passed through. -/
structure Route where
  srcDb : Dict Str TableMeta
  remap : Str → Str
  fnmatch : Str → Str → Bool
  computed : Key → List Str
  dialect : Dialect
  tables : List Str
  passed : List Str

/-- What the tables of the source need: each has a destination of its own, without generated columns; they do not refer to
each other in a circle; references to tables passed through lead to columns of their primary keys, if they have any. -/
structure RouteOK (W : Route) : Prop where
  source : DbOK W.srcDb
  columns : ∀ n t, (n, t) ∈ W.srcDb → t.columns.Nodup
  dest : ∀ n ∈ W.tables, ∃ kd, DestOf W.remap n kd ∧ W.computed kd = [] ∧
    W.fnmatch (kd.1 ++ '.' :: kd.2) (kd.1 ++ '.' :: kd.2) = true
  differ : ∀ n ∈ W.tables, ∀ n' ∈ W.tables, ∀ k, DestOf W.remap n k → DestOf W.remap n' k → n = n'
  self : ∀ n ∈ W.tables, W.fnmatch n n = true
  circles : ∀ k, ¬ Relation.TransGen (fun a b => DbRef W.srcDb a b ∧ a.1 ++ '.' :: a.2 ∈ W.tables ∧ b.1 ++ '.' :: b.2 ∈ W.tables) k k
  refs : ∀ n ∈ W.tables, ∀ t, (n, t) ∈ W.srcDb → ∀ fk ∈ t.foreignKeys, fk.dstSchema ++ '.' :: fk.dstTable ∈ W.passed →
    ∀ tb, (fk.dstSchema ++ '.' :: fk.dstTable, tb) ∈ W.srcDb → tb.primaryKey = [] ∨ ∀ c ∈ fk.dstColumns, c ∈ tb.primaryKey
  passed : ∀ n ∈ W.passed, n ∈ W.tables
  dialect : W.dialect ≠ .generic ∨ W.passed = []

/-- Database `db` can receive the samples: a destination that is there already is like the table it is for, and further
tables may be there.  The conditions are met by a database without tables. -/
structure Ready (W : Route) (db : Dict Str TableMeta) : Prop where
  dbOK : DbOK db
  closed : DbClosed db
  circles : ∀ k, ¬ Relation.TransGen (DbRef db) k k
  self : ∀ n ∈ dkeys db, W.fnmatch n n = true
  twin : ∀ n ∈ W.tables, ∀ t kd td, (n, t) ∈ W.srcDb → DestOf W.remap n kd → (kd.1 ++ '.' :: kd.2, td) ∈ db → TwinOf W.remap t td
  /-- as in `RouteOK`, for the references that are there already -/
  refs : ∀ a fk b, DbFk db a fk b → ∀ n ∈ W.passed, DestOf W.remap n b →
    ∀ td, (b.1 ++ '.' :: b.2, td) ∈ db → td.primaryKey = [] ∨ ∀ c ∈ fk.dstColumns, c ∈ td.primaryKey
  /-- on PostgreSQL, automatically incremented columns are integers of the primary key and no references -/
  auto : W.dialect = .postgresql → ∀ n ∈ W.tables, ∀ t kd td, (n, t) ∈ W.srcDb → DestOf W.remap n kd →
    (kd.1 ++ '.' :: kd.2, td) ∈ db → ∀ c, td.autoincrement = some c →
      c ∈ t.primaryKey ∧ c ∈ t.intColumns ∧ ∀ fk ∈ t.foreignKeys, c ∉ fk.columns

/-- What a run on a route needs: conditions on its configuration, its plan and the rows of the source, but none on the
destination. -/
structure GrowRun (W : Route) (j : Job σ) : Prop where
  srcDb : j.setting.srcDb = W.srcDb
  fnmatch : j.setting.fnmatch = W.fnmatch
  computed : j.setting.computed = W.computed
  dialect : j.setting.dialect = W.dialect
  remap : j.config.remap = W.remap
  tables : ∀ n ∈ dkeys j.plan.queries, n ∈ W.tables
  passed : ∀ n ∈ j.plan.passthrough, n ∈ W.passed
  merges : Merges j.config
  compactNames : (dkeys j.config.compact.columns).Nodup
  create : j.config.create = true
  /-- compaction needs integer primary keys that are not part of foreign keys -/
  compactKeys : Compacts j.config → ∀ n t c, (n, t) ∈ W.srcDb →
    Selected W.fnmatch W.srcDb (dkeys j.plan.queries) (t.schema, t.name) → t.primaryKey = [c] → c ∈ t.intColumns →
    n ∉ j.plan.passthrough → ∀ fk ∈ t.foreignKeys, c ∉ fk.columns
  /-- and foreign keys without repeated columns where a temporary table cannot be used twice -/
  compactPairs : Compacts j.config → j.setting.reopen = false → ∀ n ∈ dkeys j.plan.queries, ∀ t, (n, t) ∈ W.srcDb →
    ∀ fk ∈ t.foreignKeys, fk.columns.Nodup ∧ fk.dstColumns.Nodup
  extra : ∀ x ∈ j.planned.extraFks, x.Valid
  targets : [] ∉ dkeys j.planned.targets
  plan : plan W.fnmatch W.srcDb j.planned = .ok j.plan
  ignored : j.planned.ignoreFks = []
  /-- ignored tables must not be referred to by others, which is checked unless dependencies are left out -/
  dependencies : j.planned.includeDependencies = true ∨ j.planned.ignore = []
  all : ∀ n y, dget j.planned.targets n = some y → y.all = true → y.amount = none
  keys : PkOK (dbTables W.srcDb) j.setting.src
  source : Intact W.srcDb j.setting.src
  columns : ∀ n t, (n, t) ∈ W.srcDb → ∀ fk ∈ t.foreignKeys, (∀ c ∈ fk.columns, c ∈ t.columns) ∧
    ∀ tb, (fk.dstSchema ++ '.' :: fk.dstTable, tb) ∈ W.srcDb → ∀ c ∈ fk.dstColumns, c ∈ tb.columns
  mergeKeys : MergeKeys j.setting j.plan
  /-- on PostgreSQL, integer columns of primary keys of tables passed through hold integers -/
  auto : W.dialect = .postgresql → ∀ n ∈ j.plan.passthrough, ∀ k t, parseTableName n = some k → (n, t) ∈ W.srcDb →
    ∀ c ∈ t.primaryKey, c ∈ t.intColumns → ∀ r ∈ j.setting.src k, ∃ v : Int, r.get c = .int v

/-- A database: its tables and their contents. -/
structure Database where
  tables : Dict Str TableMeta
  rows : DbState

/-- The setting of a run into a database with other tables. -/
def Job.into (j : Job σ) (db : Dict Str TableMeta) : Setting σ := { j.setting with dstDb := db }

/-- The run. -/
def Job.result (j : Job σ) (B : Database) : RunResult := sample j.config (j.into B.tables) j.plan B.rows j.start

/-- The database after some runs, each into what the one before has left. -/
def grown : List (Job σ) → Database → Database
  | [], B => B
  | j :: js, B => grown js ⟨(j.result B).schema, (j.result B).final⟩

end Subsetter.Spec
