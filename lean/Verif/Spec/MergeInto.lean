import Verif.Spec.RunWorks

/-
Merging samples into a database that has the same tables as the source.
-/
namespace Subsetter.Spec
open Subsetter

variable {σ : Type}

/-- Rows are merged and otherwise copied as they are. -/
structure MergeOnly (C : RunConfig) : Prop where
  filters : ∀ n fs, (n, fs) ∈ C.filters → fs = []
  compactKeys : C.compact.primaryKeys = false ∧ C.compact.autoIncrementKeys = false
  compactColumns : ∀ n cs, (n, cs) ∈ C.compact.columns → cs = []
  startKey : 0 ≤ C.compact.startKey
  once : C.mult.multiplier ≤ 1
  infer : C.infer = .none
  merge : C.merge = true
  truncate : C.truncate = false
  create : C.create = false
  strategy : C.strategy = .error

/-- Rows are merged and, but for identifiers that may be compacted, copied as they are. -/
structure Merges (C : RunConfig) : Prop where
  filters : ∀ n fs, (n, fs) ∈ C.filters → fs = []
  compactColumns : ∀ n cs, (n, cs) ∈ C.compact.columns → cs = []
  startKey : 0 ≤ C.compact.startKey
  once : C.mult.multiplier ≤ 1
  infer : C.infer = .none
  merge : C.merge = true
  truncate : C.truncate = false
  strategy : C.strategy = .error

/-- What compaction needs besides: no integer primary key of a table matched by the names of planned tables is part of a
foreign key; databases that cannot use a temporary table twice need foreign keys without repeated columns; on PostgreSQL
automatically incremented columns of the destination are no references. -/
structure CompactSound (C : RunConfig) (D : Setting σ) (p : Plan) : Prop where
  keys : ∀ n t c, (n, t) ∈ D.srcDb → Selected D.fnmatch D.srcDb (dkeys p.queries) (t.schema, t.name) →
    t.primaryKey = [c] → c ∈ t.intColumns → n ∉ p.passthrough → ∀ fk ∈ t.foreignKeys, c ∉ fk.columns
  pairs : D.reopen = false → ∀ n ∈ dkeys p.queries, ∀ t, (n, t) ∈ D.srcDb → ∀ fk ∈ t.foreignKeys,
    fk.columns.Nodup ∧ fk.dstColumns.Nodup
  auto : D.dialect = .postgresql → ∀ n ∈ dkeys p.queries, ∀ t kd td, (n, t) ∈ D.srcDb → DestOf C.remap n kd →
    (kd.1 ++ '.' :: kd.2, td) ∈ D.dstDb → ∀ c, td.autoincrement = some c → ∀ fk ∈ t.foreignKeys, c ∉ fk.columns

/-- Table `td` of the destination has the columns of table `t` of the source, its primary key, whose columns may be in
another order, and no foreign keys but its. -/
structure TwinOf (remap : Str → Str) (t td : TableMeta) : Prop where
  columns : td.columns = t.columns
  primaryKey : ∀ c, c ∈ td.primaryKey ↔ c ∈ t.primaryKey
  single : ∀ c, t.primaryKey = [c] → td.primaryKey = [c]
  intColumns : td.intColumns = t.intColumns
  foreignKeys : ∀ fk ∈ td.foreignKeys, ∃ fk0 ∈ t.foreignKeys, fk0.columns = fk.columns ∧ fk0.dstColumns = fk.dstColumns ∧
    DestOf remap (fk0.dstSchema ++ '.' :: fk0.dstTable) (fk.dstSchema, fk.dstTable)

/-- The destination has a table like it for every planned table, and no circles. -/
structure Twins (C : RunConfig) (D : Setting σ) (p : Plan) : Prop where
  tables : ∀ n ∈ dkeys p.queries, ∀ t, (n, t) ∈ D.srcDb → ∃ kd td, DestOf C.remap n kd ∧
    (kd.1 ++ '.' :: kd.2, td) ∈ D.dstDb ∧ TwinOf C.remap t td ∧ D.computed kd = []
  differ : ∀ n ∈ dkeys p.queries, ∀ n' ∈ dkeys p.queries, ∀ k, DestOf C.remap n k → DestOf C.remap n' k → n = n'
  circles : ∀ k, ¬ Relation.TransGen (DbRef D.dstDb) k k
  /-- names match themselves as patterns -/
  self : ∀ n, n ∈ dkeys D.dstDb ∨ n ∈ dkeys p.queries → D.fnmatch n n = true
  /-- references to tables passed through lead to columns of their primary keys, if they have any -/
  stable : ∀ a fk b, DbFk D.dstDb a fk b → ∀ n ∈ dkeys p.queries, n ∈ p.passthrough → DestOf C.remap n b →
    ∀ td, (b.1 ++ '.' :: b.2, td) ∈ D.dstDb → td.primaryKey = [] ∨ ∀ c ∈ fk.dstColumns, c ∈ td.primaryKey
  /-- tables passed through need a strategy for conflicts -/
  dialect : D.dialect ≠ .generic ∨ p.passthrough = []
  /-- automatically incremented columns hold integers, which is needed on PostgreSQL -/
  auto : D.dialect = .postgresql → ∀ n ∈ dkeys p.queries, ∀ k kd td, parseTableName n = some k → DestOf C.remap n kd →
    (kd.1 ++ '.' :: kd.2, td) ∈ D.dstDb → ∀ c, td.autoincrement = some c → ∀ r ∈ D.src k, ∃ v : Int, r.get c = .int v

/-- Tables that are merged have a single column of natural numbers as primary key, which is no reference; references lead
by one column to the primary key of a merged table, or to a table passed through. -/
structure MergeKeys (D : Setting σ) (p : Plan) : Prop where
  simple : SimpleRefs D p
  columns : ∀ n ∈ dkeys p.queries, ∀ t, (n, t) ∈ D.srcDb → ∀ c ∈ t.primaryKey, c ∈ t.columns
  key : ∀ n ∈ dkeys p.queries, n ∉ p.passthrough → ∀ k t, parseTableName n = some k → (n, t) ∈ D.srcDb →
    ∃ c, t.primaryKey = [c] ∧ c ∈ t.intColumns ∧ Naturals (D.src k) c ∧ ∀ fk ∈ t.foreignKeys, c ∉ fk.columns
  single : ∀ n ∈ dkeys p.queries, ∀ t, (n, t) ∈ D.srcDb → ∀ fk ∈ t.foreignKeys,
    fk.dstSchema ++ '.' :: fk.dstTable ∉ p.passthrough →
    (∃ c, fk.columns = [c]) ∧ ∀ tb, (fk.dstSchema ++ '.' :: fk.dstTable, tb) ∈ D.srcDb → fk.dstColumns = tb.primaryKey

/-- The number added to the key of a merged table: one more than the largest key it holds, zero if it holds none. -/
def IsOffset (rows : List Row) (c : Str) (o : Int) : Prop := (IsMax rows c none ∧ o = 0) ∨ ∃ m, IsMax rows c (some m) ∧ o = m + 1

/-- A value moved by a number. -/
def moved (o : Int) : Val → Val
  | .int n => .int (n + o)
  | v => v

/-- `r'` is the row `r` of table `n` with its key and its references to merged tables moved, and nothing else changed. -/
structure MovedRow (p : Plan) (off : Str → Int) (n : Str) (t : TableMeta) (r r' : Row) : Prop where
  columns : dkeys r' = t.columns
  key : ∀ c ∈ t.primaryKey, r'.get c = moved (off n) (r.get c)
  refs : ∀ fk ∈ t.foreignKeys, fk.dstSchema ++ '.' :: fk.dstTable ∉ p.passthrough → ∀ c ∈ fk.columns,
    r'.get c = moved (off (fk.dstSchema ++ '.' :: fk.dstTable)) (r.get c)
  others : ∀ c ∈ t.columns, c ∉ t.primaryKey →
    (∀ fk ∈ t.foreignKeys, fk.dstSchema ++ '.' :: fk.dstTable ∉ p.passthrough → c ∉ fk.columns) → r'.get c = r.get c

/-- The contents `S` of a database respect its tables and foreign keys; `computed` are the generated columns. -/
structure Sound (db : Dict Str TableMeta) (computed : Key → List Str) (S : DbState) : Prop where
  intact : Intact db S
  elsewhere : ∀ k, ¬ InDb db k → S k = []
  tables : ∀ n t, (n, t) ∈ db → TableHolds ⟨t.columns, computed (t.schema, t.name), fun _ => .null, t.primaryKey⟩ (S (t.schema, t.name))

/-- A run: its configuration, its setting, the plan, the configuration that was planned and the state of the outside
world it starts in. -/
structure Job (σ : Type) where
  config : RunConfig
  setting : Setting σ
  plan : Plan
  planned : PlannerConfig
  start : σ

/-- The contents of the destination after some runs. -/
def afterRuns : List (Job σ) → DbState → DbState
  | [], S => S
  | j :: js, S => afterRuns js (sample j.config j.setting j.plan S j.start).final

end Subsetter.Spec
