import Verif.Model.Exec
import Mathlib.Data.List.Sort

/-
Model of identifier compaction in `/repo/subsetter/sampler.py`: `_get_compact_columns` and the parts of
`_materialize_tables` and `_copy_results` that deal with compacted columns.
-/
namespace Subsetter

/-- `CompactConfig` (`config_model.py:94-98`). -/
structure CompactConfig where
  primaryKeys : Bool := false
  autoIncrementKeys : Bool := false
  columns : Dict Str (List Str) := []
  startKey : Int := 1
  deriving DecidableEq, Repr

/-- Exceptions of `_get_compact_columns`.  `sampler.py:753-809`. -/
inductive CompactErr where
  | badName
  | withinForeignKey
  deriving DecidableEq, Repr

/-- Columns configured by name (`sampler.py:761-776`); the warnings are not modelled. -/
def namedColumns (T : Tables) (pass : List Str) :
    List (Str × List Str) → Dict Key (List Str) → Except CompactErr (Dict Key (List Str))
  | [], cc => .ok cc
  | (table, cols) :: rest, cc =>
    if cols = [] then namedColumns T pass rest cc
    else
      match parseTableName table with
      | none => .error .badName
      | some k =>
        if (dget T k).isNone then namedColumns T pass rest cc
        else if table ∈ pass then namedColumns T pass rest cc
        else namedColumns T pass rest (dset cc k (toSet cols))

/-- One iteration of the loop over all tables (`sampler.py:784-798`).  `intColumns` are the columns whose
Python type is an integer. -/
def keyColumn (cfg : CompactConfig) (pass : List Str) (cc : Dict Key (List Str)) (e : Key × TableMeta) :
    Dict Key (List Str) :=
  match e.2.primaryKey with
  | [c] =>
    if e.1.str ∈ pass then cc
    else if c ∉ e.2.intColumns then cc
    else if cfg.primaryKeys || e.2.autoincrement.isSome then dset cc e.1 (setAdd ((dget cc e.1).getD []) c)
    else cc
  | _ => cc

/-- The check that no compacted column is part of a foreign key (`sampler.py:800-807`) fails. -/
def withinFk (T : Tables) (cc : Dict Key (List Str)) : Bool :=
  T.any fun e => e.2.foreignKeys.any fun fk => fk.columns.any fun c => decide (c ∈ (dget cc e.1).getD [])

/-- `_get_compact_columns` (`sampler.py:753-809`). -/
def getCompactColumns (T : Tables) (pass : List Str) (cfg : CompactConfig) :
    Except CompactErr (Dict Key (List Str)) :=
  match namedColumns T pass cfg.columns [] with
  | .error e => .error e
  | .ok cc =>
    if !cfg.primaryKeys && !cfg.autoIncrementKeys then .ok cc
    else
      let cc' := T.foldl (keyColumn cfg pass) cc
      if withinFk T cc' then .error .withinForeignKey else .ok cc'

/-- The primary key of the row at a position.  `sampler.py:880-887`. -/
def keyAt (pk : List Str) (rows : List Row) (i : Nat) : List Val :=
  match rows[i]? with
  | some r => pk.map r.get
  | none => []

/-- Positions of the rows in the order of `ORDER BY` the primary key; `le` is the order of the database on
tuples of values.  `sampler.py:880-887`. -/
def sortedPositions (le : List Val → List Val → Bool) (pk : List Str) (rows : List Row) : List Nat :=
  (List.range rows.length).insertionSort fun i j => le (keyAt pk rows i) (keyAt pk rows j) = true

/-- `row_number() OVER (ORDER BY pk) + start_key - 1` (`sampler.py:877-890, 981-990`) of every row.  For a
table in a temporary table the column is stored when the rows are, so it is a function of these rows. -/
def compactIds (le : List Val → List Val → Bool) (start : Int) (pk : List Str) (rows : List Row) : List Int :=
  (List.range rows.length).map fun i => (((sortedPositions le pk rows).idxOf i + 1 : Nat) : Int) + start - 1

/-- `remote_compact_cols` (`sampler.py:965-975`). -/
def remoteCols (compact : Dict Key (List Str)) (fks : List ForeignKey) : Dict Str (Key × Str) :=
  fks.foldl (fun d fk =>
    (fk.columns.zip fk.dstColumns).foldl (fun d e =>
      if e.2 ∈ (dget compact fk.dst).getD [] then dset d e.1 (fk.dst, e.2) else d) d) []

/-- The joins made to look up compacted identifiers, in the order of the columns (`sampler.py:999-1027`). -/
def lookups (compact : Dict Key (List Str)) (k : Key) (t : TableMeta) : List (Str × Key × Str) :=
  t.columns.filterMap fun c =>
    if c ∈ (dget compact k).getD [] then none
    else (dget (remoteCols compact t.foreignKeys) c).map fun x => (c, x)

/-- The table identifiers passed to `build_ctx` for the statement that copies a table
(`sampler.py:955-959, 1006-1012`). -/
def copyRefs (compact : Dict Key (List Str)) (temps : Temps) (k : Key) (t : TableMeta) (q : TableQuery) :
    List TableId :=
  (if (dget temps (k, 0)).isSome then [] else q.refs) ++
    (lookups compact k t).map fun x => ⟨x.2.1.1, x.2.1.2, true⟩

/-- The identifiers an outer join finds for one value: those of the rows with that value, or NULL if there are
none.  `sampler.py:999-1029`. -/
def lookupIds (idsOf : Key → List (Int × Row)) (x : Key × Str) (v : Val) : List Val :=
  let found := (idsOf x.1).filterMap fun e => if v ≠ .null ∧ v = e.2.get x.2 then some (Val.int e.1) else none
  if found = [] then [.null] else found

/-- All combinations of identifiers found by the joins for one row.  `sampler.py:999-1029`. -/
def lookupAll (idsOf : Key → List (Int × Row)) (r : Row) : List (Str × Key × Str) → List (Dict Str Val)
  | [] => [[]]
  | x :: xs => (lookupIds idsOf x.2 (r.get x.1)).flatMap fun v => (lookupAll idsOf r xs).map fun d => (x.1, v) :: d

/-- The columns of a copied row (`sampler.py:999-1029`). -/
def compactRow (localCols columns : List Str) (r : Row) (id : Int) (found : Dict Str Val) : Row :=
  columns.map fun c =>
    (c, if c ∈ localCols then .int id
        else match dget found c with
          | some v => v
          | none => r.get c)

/-- The rows with their new identifiers in the temporary table of `k`.  `sampler.py:876-890`. -/
def tempIds (T : Tables) (le : List Val → List Val → Bool) (start : Int) (temps : Temps) (k : Key) :
    List (Int × Row) :=
  let rows := (dget temps (k, 0)).getD []
  (compactIds le start (((dget T k).map TableMeta.primaryKey).getD []) rows).zip rows

/-- The rows copied for a table (`sampler.py:955-1029`). -/
def copyRows (E : Engine) (T : Tables) (le : List Val → List Val → Bool) (start : Int)
    (compact : Dict Key (List Str)) (src : Key → List Row) (reopen : Bool) (temps : Temps) (k : Key)
    (q : TableQuery) : Except ExecErr (List Row) :=
  match sampleRows E T src reopen temps k q with
  | .error e => .error e
  | .ok rows =>
    match dget T k with
    | none => .error .keyError
    | some t =>
      if remoteCols compact t.foreignKeys = [] ∧ (dget compact k).getD [] = [] then .ok rows
      else
        match buildContext T temps reopen [] (copyRefs compact temps k t q) with
        | none => .error .keyError
        | some _ =>
          .ok (((compactIds le start t.primaryKey rows).zip rows).flatMap fun e =>
            (lookupAll (tempIds T le start temps) e.2 (lookups compact k t)).map
              (compactRow ((dget compact k).getD []) t.columns e.2 e.1))

/-- `_copy_results` with compaction.  `sampler.py:937-1069`. -/
def copyCompacted (E : Engine) (T : Tables) (le : List Val → List Val → Bool) (start : Int)
    (compact : Dict Key (List Str)) (src : Key → List Row) (reopen : Bool) (p : Plan) (temps : Temps) :
    List Str → Except ExecErr (List (Key × List Row))
  | [] => .ok []
  | name :: names =>
    match parseTableName name with
    | none => .error .badName
    | some k =>
      match dget p.queries name with
      | none => copyCompacted E T le start compact src reopen p temps names
      | some q =>
        match copyRows E T le start compact src reopen temps k q with
        | .error e => .error e
        | .ok rows =>
          match copyCompacted E T le start compact src reopen p temps names with
          | .error e => .error e
          | .ok rest => .ok ((k, rows) :: rest)

/-- Execution of a plan with compaction (`sampler.py:746-751`). -/
def execCompact (E : Engine) (T : Tables) (le : List Val → List Val → Bool) (start : Int)
    (compact : Dict Key (List Str)) (src : Key → List Row) (reopen : Bool) (p : Plan) (insertOrder : List Str) :
    Except ExecErr (List (Key × List Row)) :=
  match materializationOrder T compact p with
  | .error e => .error e
  | .ok order =>
    match materialize E T src reopen p order [] with
    | .error e => .error e
    | .ok temps => copyCompacted E T le start compact src reopen p temps insertOrder

end Subsetter
