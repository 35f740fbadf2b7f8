import Verif.Model.Dest
import Verif.Spec.Output
import Verif.Spec.Planner

/-
Vocabulary for the destination database.
-/
namespace Subsetter.Spec
open Subsetter

/-- Table `a` of the database has the foreign key `fk`, which refers to table `b`. -/
def DbFk (db : Dict Str TableMeta) (a : Key) (fk : ForeignKey) (b : Key) : Prop :=
  ∃ n t, (n, t) ∈ db ∧ (t.schema, t.name) = a ∧ fk ∈ t.foreignKeys ∧ (fk.dstSchema, fk.dstTable) = b

/-- The reference of row `r` resolves: a column is NULL, or some row of `rows` is referred to. -/
def Resolves (fk : ForeignKey) (r : Row) (rows : List Row) : Prop :=
  (∀ c ∈ fk.columns, r.get c ≠ .null) → ∃ m ∈ rows, Refers fk.columns fk.dstColumns r m

/-- All foreign keys hold. -/
def Intact (db : Dict Str TableMeta) (S : DbState) : Prop :=
  ∀ a fk b, DbFk db a fk b → ∀ r ∈ S a, Resolves fk r (S b)

/-- The destination of a planned table: its name remapped. -/
def DestOf (remap : Str → Str) (n : Str) (k : Key) : Prop :=
  ∃ s t, parseTableName n = some (s, t) ∧ parseTableName (remap (s ++ '.' :: t)) = some k

/-- The loaded tables `T` are tables of the database, and with a table all that refer to it. -/
structure Loads (db : Dict Str TableMeta) (T : Tables) : Prop where
  sub : ∀ k t, (k, t) ∈ T → ∃ n, (n, t) ∈ db
  referring : ∀ a b, DbRef db a b → (∃ t, (b, t) ∈ T) → ∃ t, (a, t) ∈ T

/-- The destination as used for truncating and writing: `db` is its schema and `x` what is loaded of it.
Either nothing was created, or the tables missing in `db0` were. -/
inductive Prepared (fnmatch : Str → Str → Bool) (remap : Str → Str) (planned : List Str) (src : Tables)
    (db0 : Dict Str TableMeta) : Bool → Dict Str TableMeta → DestMeta → Prop
  | plain {x : DestMeta} : destInit fnmatch db0 remap planned = .ok x →
    Prepared fnmatch remap planned src db0 false db0 x
  | created {x : DestMeta} {ts ts' : List TableMeta} :
    destInit fnmatch db0 remap planned = .ok x → createdTables src x = .ok ts → ts'.Perm ts →
    Prepared fnmatch remap planned src db0 true (db0 ++ ts'.map fun t => (t.schema ++ '.' :: t.name, t))
      ⟨x.remapped, trackTables x.tables ts', x.extra⟩

/-- `t` is a copy of the source table `t0` for the destination: same columns, same primary key columns in the order
of the columns, same unique constraints, and the foreign keys lead to the destinations of the tables they led to.  A primary key of one
integral column that is not part of a foreign key is counted up automatically. -/
structure CopyOf (remap : Str → Str) (planned : List Str) (t0 t : TableMeta) : Prop where
  columns : t.columns = t0.columns
  pk : ∀ c, c ∈ t.primaryKey ↔ c ∈ t0.columns ∧ c ∈ t0.primaryKey
  order : t.primaryKey.Sublist t0.columns
  uniques : t.uniques = t0.uniques
  fks : List.Forall₂ (fun fk0 fk => fk.columns = fk0.columns ∧ fk.dstColumns = fk0.dstColumns ∧
    ∃ n ∈ planned, n = fk0.dstSchema ++ '.' :: fk0.dstTable ∧ DestOf remap n (fk.dstSchema, fk.dstTable))
    t0.foreignKeys t.foreignKeys
  ints : t.intColumns = t0.intColumns
  auto : ∀ c, t.autoincrement = some c ↔
    t.primaryKey = [c] ∧ c ∈ t.intColumns ∧ ∀ fk ∈ t.foreignKeys, c ∉ fk.columns

/-- Row `r` was written to table `k`: it is what the table stores for a row of one of the batches. -/
def WrittenTo (jobs : List TableJob) (writes : List (Key × List (List (List Val)))) (k : Key) (r : Row) : Prop :=
  ∃ j ∈ jobs, j.key = k ∧ ∃ bs, (k, bs) ∈ writes ∧ ∃ batch ∈ bs, ∃ b ∈ batch,
    StoredAs j.input.dest (writtenColumns j.input.chain j.input.dest) b r

/-- The rows to be copied have the columns the filter was made for. -/
def JobOK {σ : Type} (W : Outside σ Val) (j : TableJob) : Prop :=
  ∃ cols fs, constructFilter W cols fs = .ok j.input.chain ∧ cols.Nodup ∧ ∀ r ∈ j.rows, r.length = cols.length

/-- The table respects its definition: primary keys are unique and every row has exactly its columns. -/
def TableHolds (d : DestTable) (rows : List Row) : Prop :=
  (d.pk ≠ [] → KeysUnique d.pk rows) ∧
  ∀ r ∈ rows, dkeys r = d.columns.filter fun c => decide (c ∉ d.computed)

/-- Skipping or replacing rows does not change what foreign keys use: with these strategies referenced
columns belong to the primary key, and replaced rows get all columns of their references. -/
def KeysKept (db : Dict Str TableMeta) (jobs : List TableJob) : Prop :=
  ∀ a fk b, DbFk db a fk b →
    (∀ j ∈ jobs, j.key = b → j.strategy = .error ∨ ∀ c ∈ fk.dstColumns, c ∈ j.input.dest.pk) ∧
    ∀ j ∈ jobs, j.key = a → j.strategy = .replace →
      ∀ c ∈ fk.columns, c ∈ writtenColumns j.input.chain j.input.dest

/-- All rows of table `b` have been written: writing did not fail, or went on to a later table. -/
def Finished (writes : List (Key × List (List (List Val)))) (err : Option DestErr) (b : Key) : Prop :=
  err = none ∨ ∃ w bs rest, writes = w ++ (b, bs) :: rest ∧ rest ≠ []

/-- References of written rows lead to rows present before, or to rows the referred table has been given
once all its rows have been written. -/
def WritesClosed (db : Dict Str TableMeta) (jobs : List TableJob) (S0 : DbState)
    (writes : List (Key × List (List (List Val)))) (err : Option DestErr) : Prop :=
  ∀ a r, WrittenTo jobs writes a r → ∀ fk b, DbFk db a fk b → (∀ c ∈ fk.columns, r.get c ≠ .null) →
    (∃ m ∈ S0 b, Refers fk.columns fk.dstColumns r m) ∨
    ((∃ j ∈ jobs, j.key = b) ∧ (Finished writes err b →
      ∃ m, WrittenTo jobs writes b m ∧ Refers fk.columns fk.dstColumns r m))

end Subsetter.Spec
