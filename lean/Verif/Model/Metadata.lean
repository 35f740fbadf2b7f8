import Verif.Model.Str
import Verif.Model.Py
import Verif.Model.Solver

/-
Model of `/repo/subsetter/metadata.py`.
-/
namespace Subsetter

/-- `(schema, table)` keys.  `metadata.py:62`. -/
abbrev Key := Str × Str

instance : DecidableEq Key := inferInstanceAs (DecidableEq (Str × Str))

/-- `f"{schema}.{table}"` of a key.  `metadata.py:54-55,113`. -/
def Key.str (k : Key) : Str := render k.1 k.2

/-- `ForeignKey` (`metadata.py:19-34`). -/
structure ForeignKey where
  columns : List Str
  dstSchema : Str
  dstTable : Str
  dstColumns : List Str
  deriving DecidableEq, Repr

/-- `(fk.dst_schema, fk.dst_table)`.  `metadata.py:22-23`, `planner.py:222,233`. -/
def ForeignKey.dst (fk : ForeignKey) : Key := (fk.dstSchema, fk.dstTable)

/-- The tuple `dataclass(order=True)` compares (`metadata.py:19`). -/
def ForeignKey.sortKey (fk : ForeignKey) : List (List Str) :=
  [fk.columns, [fk.dstSchema], [fk.dstTable], fk.dstColumns]

/-- `<=` of foreign keys (`metadata.py:19`). -/
def fkLe (a b : ForeignKey) : Prop := a.sortKey ≤ b.sortKey

instance : DecidableRel fkLe := fun a b => by unfold fkLe; infer_instance

/-- `sorted(fks)`; equal elements are identical, so the sorting algorithm does not matter.
`planner.py:272-281`. -/
def sortFks (l : List ForeignKey) : List ForeignKey := l.insertionSort fkLe

/-- `TableMetadata` (`metadata.py:37-55`) with what is used of its `sa.Table`: the column names, the
column sets of unique constraints, the columns of integral type and the autoincrement column. -/
structure TableMeta where
  schema : Str
  name : Str
  columns : List Str
  primaryKey : List Str
  uniques : List (List Str) := []
  intColumns : List Str := []
  autoincrement : Option Str := none
  foreignKeys : List ForeignKey := []
  revForeignKeys : List ForeignKey := []
  deriving DecidableEq, Repr

/-- The key of a table.  `metadata.py:44-45`. -/
def TableMeta.key (t : TableMeta) : Key := (t.schema, t.name)

/-- `DatabaseMetadata.tables`.  `metadata.py:62,67`. -/
abbrev Tables := Dict Key TableMeta

/-- In-place modification of the table stored under a key.
`planner.py:196,219`, `metadata.py:184-192`. -/
def updTable (T : Tables) (k : Key) (f : TableMeta → TableMeta) : Tables :=
  T.map fun p => if p.1 = k then (p.1, f p.2) else p

/-! ### `from_engine` -/

/-- `table_deps` (`metadata.py:94-109`) of one table, in order. -/
def tableDeps (db : Dict Str TableMeta) (fwd bwd : Bool) (k : Key) : List Key :=
  db.flatMap fun p =>
    p.2.foreignKeys.flatMap fun fk =>
      (if fwd && decide (p.2.key = k) then [fk.dst] else []) ++
      (if bwd && decide (fk.dst = k) then [p.2.key] else [])

/-- Inner loop `for ref_schema, ref_table in table_deps[...]` (`metadata.py:114-117`): the new
`table_set` (kept as a list) and the keys appended to the queue. -/
def closeInner : List Key → List Key → List Key → List Key × List Key
  | [], seen, new => (seen, new)
  | d :: ds, seen, new =>
    if d ∈ seen then closeInner ds seen new else closeInner ds (d :: seen) (new ++ [d])

/-- `for schema, table in table_queue` (`metadata.py:112-117`).  The list `table_queue` is
`done ++ todo`.  `none`: `KeyError` of `metadata_obj.tables[...]`; `some none`: fuel exhausted
(proved unreachable). -/
def closeLoop (db : Dict Str TableMeta) (fwd bwd : Bool) :
    Nat → List Key → List Key → List Key → Option (Option (List Key))
  | _, _, done, [] => some (some done)
  | 0, _, _, _ :: _ => some none
  | n + 1, seen, done, k :: todo =>
    match dget db k.str with
    | none => none
    | some _ =>
      let (seen', new) := closeInner (tableDeps db fwd bwd k) seen []
      closeLoop db fwd bwd n seen' (done ++ [k]) (todo ++ new)

/-- The tables matching a pattern (`metadata.py:86-92`). -/
def selectedKeys (fnmatch : Str → Str → Bool) (db : Dict Str TableMeta) (select : List Str) :
    List Key :=
  (db.filter fun p => select.any fun pat => fnmatch p.1 pat).map fun p => p.2.key

/-- Outcome of `from_engine`: the tables and the additional ones (`metadata.py:119-131`). -/
structure Loaded where
  tables : Tables
  extra : List Key

/-- `DatabaseMetadata.from_engine` (`metadata.py:72-131`).  `db` is `metadata_obj.tables` after
reflection; `fnmatch` is a parameter.  `none` models a `KeyError`.  Fuel: every table enters the
queue at most once, and one more step may fail. -/
def fromEngine (fnmatch : Str → Str → Bool) (db : Dict Str TableMeta) (select : List Str)
    (fwd bwd : Bool) : Option (Option Loaded) :=
  let sel := selectedKeys fnmatch db select
  match closeLoop db fwd bwd (db.length + 1) sel [] sel with
  | none => none
  | some none => some none
  | some (some q) =>
    match q.mapM (fun k => (dget db k.str).map fun t => (k, t)) with
    | none => none
    | some T => some (some ⟨T, q.drop sel.length⟩)

/-! ### Inference of foreign keys -/

/-- `_key_pk` (`metadata.py:139-142`); the schema component is absent for `infer_all`. -/
def keyPk (inferAll : Bool) (schema : Str) (pk : List Str) : Option Str × List Str :=
  (if inferAll then none else some schema, pk)

/-- `pk_map` (`metadata.py:144-154`); tables are represented by their key. -/
def pkMapLoop (inferAll : Bool) : List TableMeta → Dict (Option Str × List Str) (Option Key) →
    Dict (Option Str × List Str) (Option Key)
  | [], m => m
  | t :: ts, m =>
    if t.primaryKey.isEmpty then pkMapLoop inferAll ts m
    else
      let k := keyPk inferAll t.schema t.primaryKey
      match dget m k with
      | some _ => pkMapLoop inferAll ts (dset m k none)
      | none => pkMapLoop inferAll ts (dset m k (some t.key))

/-- The keys inferred for one table (`metadata.py:158-175`): `fks` is the set of keys it had before
the loop.  `dst_table is not table` compares identities, i.e. keys. -/
def inferredFks (inferAll : Bool) (m : Dict (Option Str × List Str) (Option Key)) (t : TableMeta) :
    List ForeignKey :=
  t.columns.filterMap fun col =>
    match dget m (keyPk inferAll t.schema [col]) with
    | some (some dst) =>
      let fk : ForeignKey := ⟨[col], dst.1, dst.2, [col]⟩
      if dst ≠ t.key ∧ fk ∉ t.foreignKeys then some fk else none
    | _ => none

/-- `infer_missing_foreign_keys` (`metadata.py:138-175`). -/
def inferMissing (inferAll : Bool) (T : Tables) : Tables :=
  let m := pkMapLoop inferAll (T.map Prod.snd) []
  T.map fun p => (p.1, { p.2 with foreignKeys := p.2.foreignKeys ++ inferredFks inferAll m p.2 })

/-! ### Reverse keys and the graph -/

/-- The reversed key (`metadata.py:186-191`). -/
def reverseFk (t : TableMeta) (fk : ForeignKey) : ForeignKey :=
  ⟨fk.dstColumns, t.schema, t.name, fk.columns⟩

/-- Inner loop of `compute_reverse_keys` (`metadata.py:184-192`); `none` is the `KeyError`. -/
def revKeysInner (t : TableMeta) : List ForeignKey → Tables → Option Tables
  | [], T => some T
  | fk :: fks, T =>
    match dget T fk.dst with
    | none => none
    | some _ => revKeysInner t fks (updTable T fk.dst fun d =>
        { d with revForeignKeys := d.revForeignKeys ++ [reverseFk t fk] })

/-- Outer loop of `compute_reverse_keys` (`metadata.py:183`). -/
def revKeysLoop : List TableMeta → Tables → Option Tables
  | [], T => some T
  | t :: ts, T =>
    match revKeysInner t t.foreignKeys T with
    | none => none
    | some T' => revKeysLoop ts T'

/-- `compute_reverse_keys` (`metadata.py:182-192`). -/
def computeReverseKeys (T : Tables) : Option Tables := revKeysLoop (T.map Prod.snd) T

/-- `as_graph(ignore_tables=...)` (`metadata.py:194-208`). -/
def asGraph (T : Tables) (ignore : List Key) : Graph Str :=
  (T.filter fun p => decide (p.2.key ∉ ignore)).map fun p =>
    (p.2.key.str,
      toSet ((p.2.foreignKeys.filter fun fk =>
        decide (fk.dst ∉ ignore) && (dget T fk.dst).isSome).map fun fk => fk.dst.str))

end Subsetter
