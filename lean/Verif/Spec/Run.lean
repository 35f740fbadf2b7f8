import Verif.Model.Run
import Verif.Spec.Dest
import Verif.Spec.Compact
import Verif.Spec.Merge
import Verif.Spec.Graph

/-
Vocabulary for a whole run.
-/
namespace Subsetter.Spec
open Subsetter

variable {σ : Type}

/-- The tables of a database. -/
def dbTables (db : Dict Str TableMeta) : Tables := db.map fun e => ((e.2.schema, e.2.name), e.2)

/-- The reflected databases are well formed, the names of destination tables match themselves as patterns if
tables are to be created, and plan and configuration are dicts. -/
structure RunOK (C : RunConfig) (D : Setting σ) (p : Plan) : Prop where
  src : DbOK D.srcDb
  dst : DbOK D.dstDb
  closed : DbClosed D.dstDb
  srcColumns : ∀ n t, (n, t) ∈ D.srcDb → t.columns.Nodup
  self : C.create = true → ∀ n ∈ dkeys D.dstDb, D.fnmatch n n = true
  plan : (dkeys p.queries).Nodup
  compactNames : (dkeys C.compact.columns).Nodup

/-- No transformation of rows is configured and nothing is merged. -/
structure Plain (C : RunConfig) : Prop where
  filters : ∀ n fs, (n, fs) ∈ C.filters → fs = []
  compactKeys : C.compact.primaryKeys = false ∧ C.compact.autoIncrementKeys = false
  compactColumns : ∀ n cs, (n, cs) ∈ C.compact.columns → cs = []
  once : C.mult.multiplier ≤ 1
  merge : C.merge = false

/-- Identifiers are neither compacted nor multiplied nor shifted; filters, strategy, truncation and creation of
tables are arbitrary. -/
structure SameIds (C : RunConfig) : Prop where
  compactKeys : C.compact.primaryKeys = false ∧ C.compact.autoIncrementKeys = false
  compactColumns : ∀ n cs, (n, cs) ∈ C.compact.columns → cs = []
  once : C.mult.multiplier ≤ 1
  merge : C.merge = false

/-- The run loads table `k` of the destination: it is the destination of a planned table and tables are created,
or it matches such a destination or refers to a table that does, directly or not. -/
def Reached (C : RunConfig) (D : Setting σ) (p : Plan) (k : Key) : Prop :=
  ∃ n ∈ dkeys p.queries, ∃ d, DestOf C.remap n d ∧ ((C.create = true ∧ d = k) ∨
    ∃ s, Selected D.fnmatch D.dstDb [d.1 ++ '.' :: d.2] s ∧
      Relation.ReflTransGen (fun a b => DbRef D.dstDb b a) s k)

/-- Planned table `n`, which is table `k` of the source, is copied to table `kd` of the destination. -/
structure Copied (C : RunConfig) (D : Setting σ) (p : Plan) (schema : Dict Str TableMeta) (n : Str) (k kd : Key)
    (t td : TableMeta) : Prop where
  planned : n ∈ dkeys p.queries
  name : parseTableName n = some k
  source : (n, t) ∈ D.srcDb
  dest : DestOf C.remap n kd
  reached : Reached C D p kd
  schema : (kd.1 ++ '.' :: kd.2, td) ∈ schema

/-- `B` are the contents of the destination when copying begins. -/
structure Begins (C : RunConfig) (D : Setting σ) (p : Plan) (S B : DbState) : Prop where
  emptied : C.truncate = true → ∀ k, Reached C D p k → B k = []
  kept : ∀ k, (C.truncate = true → ¬ Reached C D p k) → B k = S k

/-- A table of the destination as it is written: tables created by the run have neither generated columns nor
defaults. -/
def target (D : Setting σ) (k : Key) (t : TableMeta) : DestTable :=
  if k.1 ++ '.' :: k.2 ∈ dkeys D.dstDb then ⟨t.columns, D.computed k, D.default k, t.primaryKey⟩
  else ⟨t.columns, [], fun _ => .null, t.primaryKey⟩

/-- Column `c` of the planned table `n` is copied as it is: it is a column of the source table `t`, no filter
changes or omits it, and the destination `kd` does not generate it. -/
def KeptColumn (C : RunConfig) (D : Setting σ) (n : Str) (t : TableMeta) (kd : Key) (td : TableMeta) (c : Str) : Prop :=
  c ∈ t.columns ∧ (∀ fs, (n, fs) ∈ C.filters → ∀ f ∈ fs, c ∉ FilterCfg.writes f) ∧ c ∉ (target D kd td).computed

/-- The row a destination table holds for a row of the source. -/
def landed (d : DestTable) (cols : List Str) (r : Row) : Row :=
  (d.columns.filter fun c => decide (c ∉ d.computed)).map fun c =>
    (c, if c ∈ cols then r.get c else d.default c)

/-- How often each row of a table is written. -/
def timesWritten (C : RunConfig) (p : Plan) (n : Str) : Nat :=
  if 1 < C.mult.multiplier ∧ n ∉ p.passthrough ∧ n ∉ C.mult.ignoreTables then C.mult.multiplier.toNat else 1

/-- The conflict strategy for a table: merging never changes rows of a table passed through. -/
def strategyFor (C : RunConfig) (p : Plan) (n : Str) : Strategy :=
  if C.merge = true ∧ n ∈ p.passthrough then .skip else C.strategy

/-- Column `c` of the merged table `n` is shifted by `o`: as the key it refers to, or as the key it is. -/
def ShiftedBy (M : MergeCtx) (n c : Str) (o : Option Int) : Prop :=
  (∃ n' d m, KeyRef M n c n' ∧ Shifted M n' d (some m) ∧ o = some (m + 1)) ∨
  ((∀ n' d m, KeyRef M n c n' → ¬ Shifted M n' d (some m)) ∧
    ((∃ m, Shifted M n c m ∧ o = m.map (· + 1)) ∨ ((∀ m, ¬ Shifted M n c m) ∧ o = none)))

/-- What the run derives from its configuration before it copies: `T` are the tables of the source, possibly
with inferred foreign keys, and for them the multiplied columns, compacted columns and offsets. -/
structure Derived (C : RunConfig) (D : Setting σ) (p : Plan) (schema : Dict Str TableMeta) (B : DbState) (T : Tables)
    (mult : Dict Str (List Str)) (compact : Dict Key (List Str)) (offs : Dict Key (Dict Str Int)) : Prop where
  source : ∀ k t, dget T k = some t → ∃ t0, (k.1 ++ '.' :: k.2, t0) ∈ D.srcDb ∧
    t = { t0 with foreignKeys := t.foreignKeys } ∧ (C.infer = .none → t = t0)
  known : ∀ n ∈ dkeys p.queries, ∃ k, parseTableName n = some k ∧ (dget T k).isSome
  mult : ∀ n c, c ∈ (dget mult n).getD [] ↔ 1 < C.mult.multiplier ∧
    MultCol T C.mult (p.passthrough ++ C.mult.ignoreTables) (dkeys p.queries) n c
  compact : ∀ k c, IsCompacted compact k c ↔
    NamedColumn T p.passthrough C.compact k c ∨ KeyColumn T p.passthrough C.compact k c
  unmerged : C.merge = false → ∀ k, (dget offs k).getD [] = []
  merged : C.merge = true → ∃ dest : Tables,
    (∀ k t, (k, t) ∈ dest ↔ Reached C D p k ∧ (k.1 ++ '.' :: k.2, t) ∈ schema) ∧
    (∀ k, (∀ n, ¬ Merged ⟨C.remap, T, dest, B, p.passthrough, dkeys p.queries⟩ n k) → (dget offs k).getD [] = []) ∧
    ∀ n k, Merged ⟨C.remap, T, dest, B, p.passthrough, dkeys p.queries⟩ n k → ∀ c,
      ShiftedBy ⟨C.remap, T, dest, B, p.passthrough, dkeys p.queries⟩ n c (dget ((dget offs k).getD []) c)
  tables : (T.map Prod.fst).Nodup
  /-- if keys are compacted, no compacted column is part of a foreign key -/
  compactRefs : C.compact.primaryKeys = true ∨ C.compact.autoIncrementKeys = true →
    ∀ k t, dget T k = some t → ∀ fk ∈ t.foreignKeys, ∀ c ∈ fk.columns,
      ¬ NamedColumn T p.passthrough C.compact k c ∧ ¬ KeyColumn T p.passthrough C.compact k c
  /-- no table that is not multiplied refers to a multiplied column of the same name -/
  unblocked : 1 < C.mult.multiplier → ¬ Blocked T C.mult (p.passthrough ++ C.mult.ignoreTables) (dkeys p.queries)
  differ : ∀ n ∈ dkeys p.queries, ∀ n' ∈ dkeys p.queries, ∀ k, DestOf C.remap n k → DestOf C.remap n' k → n = n'

/-- The rows `outs` are the first ones written for the planned table `n`.  `rows` are its sampled rows with
compacted identifiers, provided the columns looked up have no value twice; they pass through the filters and are
multiplied and shifted. -/
structure Sent (C : RunConfig) (D : Setting σ) (p : Plan) (T : Tables) (mult : Dict Str (List Str))
    (compact : Dict Key (List Str)) (offs : Dict Key (Dict Str Int)) (Smp : Key → List Row) (ids : Key → List Int)
    (n : Str) (k kd : Key) (t td : TableMeta) (ch : Chain Val) (rows : List Row) (outs : List (List Val)) : Prop where
  filter : constructFilter D.world t.columns ((dget C.filters n).getD []) = .ok ch
  compacted : (∀ c d dc, PointsTo T compact k c d dc → ¬ IsCompacted compact k c → UniqueIn (Smp d) dc) →
    List.Forall₂ (fun x out => CompactedRow T compact Smp ids k t.columns x.2 x.1 out) ((ids k).zip (Smp k)) rows
  known : ∀ c ∈ ch.colsOut, c ∈ td.columns
  fitting : Fitting (target D kd td) (writtenColumns ch (target D kd td)) outs
  written : ∃ s, FirstCopies (IsCopy D.world ch (writtenColumns ch (target D kd td)) ((dget mult n).getD [])
    (timesWritten C p n) ((dget offs kd).getD [])) (timesWritten C p n) (rows.map fun r => t.columns.map r.get) s outs

/-- Everything known of a run that got to copying: the tables copied in order, the contents `B` it began
with, the sample, the identifiers given to its rows and what was derived. -/
structure Copying (C : RunConfig) (D : Setting σ) (p : Plan) (S : DbState) (schema : Dict Str TableMeta)
    (order : List Str) (B : DbState) (Smp : Key → List Row) (ids : Key → List Int) (T : Tables)
    (mult : Dict Str (List Str)) (compact : Dict Key (List Str)) (offs : Dict Key (Dict Str Int)) : Prop where
  nodup : order.Nodup
  all : ∀ n, n ∈ order ↔ ∃ k kd t td, Copied C D p schema n k kd t td
  parents : ∀ a b na nb, DbRef schema a b → DestOf C.remap na a → DestOf C.remap nb b → na ∈ order → nb ∈ order →
    Before order nb na
  created : C.create = true → ∀ n ∈ dkeys p.queries, n ∈ order
  begins : Begins C D p S B
  sample : IsSample D.engine (dbTables D.srcDb) D.src p Smp
  ids : ∀ k, (ids k).length = (Smp k).length ∧ FillsFrom C.compact.startKey (ids k)
  derived : Derived C D p schema B T mult compact offs

/-- All rows of a table have been written: `old` were its rows before and `new` are its rows after. -/
def FullyWritten (C : RunConfig) (D : Setting σ) (p : Plan) (T : Tables) (mult : Dict Str (List Str))
    (compact : Dict Key (List Str)) (offs : Dict Key (Dict Str Int)) (Smp : Key → List Row) (ids : Key → List Int)
    (n : Str) (k kd : Key) (t td : TableMeta) (old new : List Row) : Prop :=
  ∃ ch rows bs, Sent C D p T mult compact offs Smp ids n k kd t td ch rows bs.flatten ∧
    bs.flatten.length = rows.length * timesWritten C p n ∧ Batches (D.buffer + 1) bs ∧
    Commits (flushBuffer D.dialect (strategyFor C p n) (target D kd td) (writtenColumns ch (target D kd td))) old bs new

/-- The first complete batches of a table have been written. -/
def PartlyWritten (C : RunConfig) (D : Setting σ) (p : Plan) (T : Tables) (mult : Dict Str (List Str))
    (compact : Dict Key (List Str)) (offs : Dict Key (Dict Str Int)) (Smp : Key → List Row) (ids : Key → List Int)
    (n : Str) (k kd : Key) (t td : TableMeta) (old new : List Row) : Prop :=
  new = old ∨ ∃ ch rows bs, Sent C D p T mult compact offs Smp ids n k kd t td ch rows bs.flatten ∧
    (∀ b ∈ bs, b.length = D.buffer + 1) ∧
    Commits (flushBuffer D.dialect (strategyFor C p n) (target D kd td) (writtenColumns ch (target D kd td))) old bs new

/-- The contents `X` of the destination at some time of copying: the tables `done` are complete, the first of the
tables `todo` has some of its rows, everything else is as when copying began. -/
structure WhileCopying (C : RunConfig) (D : Setting σ) (p : Plan) (schema : Dict Str TableMeta) (order : List Str)
    (B : DbState) (Smp : Key → List Row) (ids : Key → List Int) (T : Tables) (mult : Dict Str (List Str))
    (compact : Dict Key (List Str)) (offs : Dict Key (Dict Str Int)) (X : DbState) (done todo : List Str) : Prop where
  order_eq : order = done ++ todo
  full : ∀ n k kd t td, Copied C D p schema n k kd t td → n ∈ done →
    FullyWritten C D p T mult compact offs Smp ids n k kd t td (B kd) (X kd)
  part : ∀ n k kd t td, Copied C D p schema n k kd t td → todo.head? = some n →
    PartlyWritten C D p T mult compact offs Smp ids n k kd t td (B kd) (X kd)
  untouched : ∀ n k kd t td, Copied C D p schema n k kd t td → n ∈ todo.tail → X kd = B kd
  others : ∀ kd, (∀ n k t td, ¬ Copied C D p schema n k kd t td) → X kd = B kd

/-- The foreign keys of the destination's copied tables are those of the source the planner used: each leads to the
destination of the planned table it leads to in the source, and its columns are copied as they are on both sides. -/
def Mirrored (C : RunConfig) (D : Setting σ) (cfg : PlannerConfig) (T : Tables) (p : Plan) (schema : Dict Str TableMeta) :
    Prop :=
  ∀ n k kd t td, Copied C D p schema n k kd t td → ∀ fk ∈ td.foreignKeys,
    (∀ c ∈ fk.columns, KeptColumn C D n t kd td c) ∧
    ∃ fk0 kb nb, DbFk D.srcDb k fk0 kb ∧ UsedFk cfg T k fk0 kb ∧ fk0.columns = fk.columns ∧
      fk0.dstColumns = fk.dstColumns ∧ nb ∈ dkeys p.queries ∧ parseTableName nb = some kb ∧
      DestOf C.remap nb (fk.dstSchema, fk.dstTable) ∧
      ∀ kb' tb tdb, Copied C D p schema nb kb' (fk.dstSchema, fk.dstTable) tb tdb →
        ∀ c ∈ fk.dstColumns, KeptColumn C D nb tb (fk.dstSchema, fk.dstTable) tdb c

/-- Rows present cannot lose the columns that are referred to: the table is written with the strategy `error`, it has
no primary key, or the columns belong to the primary key. -/
def RefsStable (C : RunConfig) (D : Setting σ) (p : Plan) (schema : Dict Str TableMeta) : Prop :=
  ∀ a fk b, DbFk schema a fk b → ∀ n k t td, Copied C D p schema n k b t td →
    strategyFor C p n = .error ∨ td.primaryKey = [] ∨ ∀ c ∈ fk.dstColumns, c ∈ td.primaryKey

/-- A column of table `n` and the column of `nb` it refers to are compacted, multiplied and shifted alike, for each of
the pairs `es`: copy `j` of a row refers to copy `j` of the row it refers to, or no column is multiplied. -/
structure Alike (C : RunConfig) (p : Plan) (T : Tables) (mult : Dict Str (List Str)) (compact : Dict Key (List Str))
    (offs : Dict Key (Dict Str Int)) (n : Str) (k kd : Key) (nb : Str) (kb kdb : Key) (es : List (Str × Str)) : Prop where
  compacted : ∀ e ∈ es, PairSafe T compact k kb e
  multiplied : ∀ e ∈ es, e.1 ∈ (dget mult n).getD [] ↔ e.2 ∈ (dget mult nb).getD []
  copies : timesWritten C p n = timesWritten C p nb ∨ ∀ e ∈ es, e.1 ∉ (dget mult n).getD []
  shifted : ∀ e ∈ es, dget ((dget offs kd).getD []) e.1 = dget ((dget offs kdb).getD []) e.2

/-- Columns of the destination's foreign keys are treated as the columns they refer to. -/
def RefsAlike (C : RunConfig) (D : Setting σ) (p : Plan) (schema : Dict Str TableMeta) (T : Tables)
    (mult : Dict Str (List Str)) (compact : Dict Key (List Str)) (offs : Dict Key (Dict Str Int)) : Prop :=
  ∀ n k kd t td, Copied C D p schema n k kd t td → ∀ fk ∈ td.foreignKeys, ∀ nb kb tb tdb,
    Copied C D p schema nb kb (fk.dstSchema, fk.dstTable) tb tdb →
    Alike C p T mult compact offs n k kd nb kb (fk.dstSchema, fk.dstTable) (fk.columns.zip fk.dstColumns)

/-- The destination accepts what a plain run copies: `B` are its contents and `Smp` is the sample. -/
structure Accepts (C : RunConfig) (D : Setting σ) (p : Plan) (schema : Dict Str TableMeta) (B : DbState)
    (Smp : Key → List Row) : Prop where
  /-- conflict strategies other than `error` are not supported by all dialects -/
  dialect : D.dialect ≠ .generic ∨ C.strategy = .error
  columns : ∀ n k kd t td, Copied C D p schema n k kd t td → ∀ c ∈ t.columns, c ∈ td.columns
  key : ∀ n k kd t td, Copied C D p schema n k kd t td → ∀ c ∈ td.primaryKey,
    c ∈ t.columns ∧ c ∉ (target D kd td).computed
  /-- generated columns cannot be replaced -/
  generated : ∀ n k kd t td, Copied C D p schema n k kd t td → C.strategy ≠ .replace ∨ (target D kd td).computed = []
  /-- no conflict with rows that are there or among the sampled rows, unless there is a strategy for it -/
  unique : ∀ n k kd t td, Copied C D p schema n k kd t td → C.strategy = .error → td.primaryKey = [] ∨
    KeysUnique td.primaryKey (B kd ++ (Smp k).map (landed (target D kd td) t.columns))
  /-- the largest value of an automatically incremented column is computed on PostgreSQL -/
  auto : D.dialect = .postgresql → ∀ n k kd t td, Copied C D p schema n k kd t td → ∀ c, td.autoincrement = some c →
    c ∈ t.columns → ∀ r ∈ Smp k, ∃ v : Int, r.get c = .int v

/-- What planned tables need of the two databases so that nothing fails before rows are copied. -/
structure Runnable (C : RunConfig) (D : Setting σ) (p : Plan) : Prop where
  /-- planned tables exist in the source and their names match themselves as patterns -/
  source : ∀ n ∈ dkeys p.queries, n ∈ dkeys D.srcDb ∧ D.fnmatch n n = true
  /-- queries refer to planned tables only -/
  refs : ∀ k q, Planned p k q → ∀ x ∈ q.refs, ∃ q', Planned p (x.schema, x.name) q'
  acyclic : Acyclic p
  dest : ∀ n ∈ dkeys p.queries, ∃ k, DestOf C.remap n k
  differ : ∀ n ∈ dkeys p.queries, ∀ n' ∈ dkeys p.queries, ∀ k, DestOf C.remap n k → DestOf C.remap n' k → n = n'
  circles : ∀ k, ¬ Relation.TransGen (DbRef D.dstDb) k k
  /-- foreign keys of tables to be created lead to planned tables and to columns of their destinations -/
  keys : C.create = true → ∀ n ∈ dkeys p.queries, ∀ t, (n, t) ∈ D.srcDb → (∀ d, DestOf C.remap n d → ¬ InDb D.dstDb d) →
    ∀ fk ∈ t.foreignKeys, fk.dstSchema ++ '.' :: fk.dstTable ∈ dkeys p.queries ∧
      (∀ tb, (fk.dstSchema ++ '.' :: fk.dstTable, tb) ∈ D.srcDb → ∀ c ∈ fk.dstColumns, c ∈ tb.columns) ∧
      ∀ d n td, DestOf C.remap (fk.dstSchema ++ '.' :: fk.dstTable) d → (n, td) ∈ D.dstDb → (td.schema, td.name) = d →
        ∀ c ∈ fk.dstColumns, c ∈ td.columns
  /-- planned tables do not refer to each other in a circle, if tables are created -/
  srcCircles : C.create = true → ∀ k, ¬ Relation.TransGen (fun a b => DbRef D.srcDb a b ∧
    a.1 ++ '.' :: a.2 ∈ dkeys p.queries ∧ b.1 ++ '.' :: b.2 ∈ dkeys p.queries) k k

end Subsetter.Spec
