import Verif.Model.Metadata
import Verif.Model.Output

/-
Model of `DatabaseOutput` (`/repo/subsetter/sampler.py:389-601`): remapping of table names, creation of
missing tables, truncation and the order of insertion.  `merge` is in `Verif.Model.Merge`.
-/
namespace Subsetter

/-- Exceptions.  `common.py:26`, `metadata.py:180`, `sampler.py:389-751`. -/
inductive DestErr where
  /-- `parse_table_name` (`common.py:26`) -/
  | badName
  /-- `sampler.py:412` -/
  | duplicate (n : Str)
  | keyError
  /-- `solver.py`: the graph has a cycle -/
  | cycle
  | fuel
  /-- while a result set is written -/
  | output (e : OutErr)
  deriving DecidableEq, Repr

/-- `_remap_table` (`sampler.py:588-592`).  `remap` stands for the chain of `re.sub` calls. -/
def remapTable (remap : Str → Str) (k : Key) : Option Key := parseTableName (remap k.str)

/-- The loop building `table_remap` (`sampler.py:408-414`): destination name to planned name. -/
def buildRemap (remap : Str → Str) : List Str → Dict Str Str → Except DestErr (Dict Str Str)
  | [], m => .ok m
  | n :: ns, m =>
    match parseTableName n with
    | none => .error .badName
    | some k =>
      match remapTable remap k with
      | none => .error .badName
      | some k' =>
        match dget m k'.str with
        | none => buildRemap remap ns (dset m k'.str n)
        | some n' => if n' = n then buildRemap remap ns m else .error (.duplicate k'.str)

/-- The members `table_remap`, `meta.tables` and `additional_tables` of `DatabaseOutput`.
`sampler.py:393-420`. -/
structure DestMeta where
  remapped : Dict Str Str
  tables : Tables
  extra : List Key

/-- `DatabaseOutput.__init__` (`sampler.py:393-420`): `db` is the reflected destination, `planned` the
keys of `plan.queries`. -/
def destInit (fnmatch : Str → Str → Bool) (db : Dict Str TableMeta) (remap : Str → Str) (planned : List Str) :
    Except DestErr DestMeta :=
  match buildRemap remap planned [] with
  | .error e => .error e
  | .ok m =>
    match fromEngine fnmatch db (dkeys m) false true with
    | none => .error .keyError
    | some none => .error .fuel
    | some (some l) => .ok ⟨m, l.tables, l.extra⟩

/-- `self.tables[parse_table_name(u)] for u in ...` (`metadata.py:178-180`). -/
def lookupTables (T : Tables) : List Str → Except DestErr (List TableMeta)
  | [] => .ok []
  | u :: us =>
    match parseTableName u with
    | none => .error .badName
    | some k =>
      match dget T k with
      | none => .error .keyError
      | some t =>
        match lookupTables T us with
        | .error e => .error e
        | .ok ts => .ok (t :: ts)

/-- `DatabaseMetadata.toposort` (`metadata.py:177-180`). -/
def metaToposort (T : Tables) : Except DestErr (List TableMeta) :=
  match toposort (asGraph T []) with
  | .error .cycleDetected => .error .cycle
  | .error .fuel => .error .fuel
  | .error _ => .error .keyError
  | .ok us => lookupTables T us

/-- `insert_order` (`sampler.py:594-601`). -/
def insertOrder (x : DestMeta) : Except DestErr (List Str) :=
  match metaToposort x.tables with
  | .error e => .error e
  | .ok ts => .ok (ts.filterMap fun t => (dget x.remapped t.key.str).filter fun n => !n.isEmpty)

/-! ### Truncation -/

/-- Contents of the destination.  `sampler.py:603-709`. -/
abbrev DbState := Key → List Row

/-- The state with the rows of one table replaced.  `sampler.py:676-683`. -/
def DbState.set (S : DbState) (k : Key) (rows : List Row) : DbState := fun k' => if k' = k then rows else S k'

/-- Deletion of all rows table by table, each followed by a commit (`sampler.py:582-586`): the states
after each commit.  `ON DELETE` actions are not modelled. -/
def truncateStates : List TableMeta → DbState → List DbState
  | [], _ => []
  | t :: ts, S => S.set t.key [] :: truncateStates ts (S.set t.key [])

/-- `truncate` (`sampler.py:574-586`): the states after each commit. -/
def truncate (x : DestMeta) (S : DbState) : Except DestErr (List DbState) :=
  match metaToposort x.tables with
  | .error e => .error e
  | .ok ts => .ok (truncateStates ts.reverse S)

/-! ### Creation -/

/-- The new `sa.Table` (`sampler.py:504-517`): the primary key is in the order of the columns.  Of the types only
whether they are integral is modelled; nullability is not. -/
def newTable (k : Key) (t : TableMeta) : TableMeta :=
  { schema := k.1, name := k.2, columns := t.columns,
    primaryKey := t.columns.filter fun c => decide (c ∈ t.primaryKey), intColumns := t.intColumns }

/-- `autoincrement_column` of a new `sa.Table`, whose columns have `autoincrement="auto"` (SQLAlchemy,
`PrimaryKeyConstraint._autoincrement_column`): a primary key of one integral column without a foreign key.
Numeric types are left out.  `sampler.py:527-566`. -/
def autoColumn (t : TableMeta) (fks : List ForeignKey) : Option Str :=
  match t.primaryKey with
  | [c] => if c ∈ t.intColumns ∧ fks.all (fun fk => decide (c ∉ fk.columns)) then some c else none
  | _ => none

/-- First loop of `create` (`sampler.py:494-518`): for each planned table the destination table and
whether it is new.  `src` are the reflected source tables. -/
def tableObjs (src T : Tables) : Dict Str Str → Except DestErr (List (Str × TableMeta × Bool))
  | [] => .ok []
  | (r, n) :: rest =>
    match parseTableName r with
    | none => .error .badName
    | some k =>
      match dget T k with
      | some t =>
        match tableObjs src T rest with
        | .error e => .error e
        | .ok l => .ok ((n, t, false) :: l)
      | none =>
        match parseTableName n with
        | none => .error .badName
        | some k0 =>
          match dget src k0 with
          | none => .error .keyError
          | some t0 =>
            match tableObjs src T rest with
            | .error e => .error e
            | .ok l => .ok ((n, newTable k t0, true) :: l)

/-- Foreign keys of a new table (`sampler.py:541-550` with `_remap_cols`): the referred table is looked
up among the planned tables. -/
def copyFks (objs : List (Str × TableMeta × Bool)) : List ForeignKey → Except DestErr (List ForeignKey)
  | [] => .ok []
  | fk :: fks =>
    match dget objs fk.dst.str with
    | none => .error .keyError
    | some (t, _) =>
      if fk.dstColumns.all fun c => decide (c ∈ t.columns) then
        match copyFks objs fks with
        | .error e => .error e
        | .ok l => .ok (⟨fk.columns, t.schema, t.name, fk.dstColumns⟩ :: l)
      else .error .keyError

/-- Second loop of `create` (`sampler.py:527-566`): the tables created with their constraints.  Check
constraints and indexes (`sampler.py:537-540,552-566`) are not modelled. -/
def createLoop (src : Tables) (objs : List (Str × TableMeta × Bool)) :
    List (Str × TableMeta × Bool) → Except DestErr (List TableMeta)
  | [] => .ok []
  | (_, _, false) :: rest => createLoop src objs rest
  | (n, t, true) :: rest =>
    match parseTableName n with
    | none => .error .badName
    | some k0 =>
      match dget src k0 with
      | none => .error .keyError
      | some t0 =>
        match copyFks objs t0.foreignKeys with
        | .error e => .error e
        | .ok fks =>
          match createLoop src objs rest with
          | .error e => .error e
          | .ok l => .ok ({ t with uniques := t0.uniques, foreignKeys := fks, autoincrement := autoColumn t fks } :: l)

/-- The tables created by `create` (`sampler.py:487-570`). -/
def createdTables (src : Tables) (x : DestMeta) : Except DestErr (List TableMeta) :=
  match tableObjs src x.tables x.remapped with
  | .error e => .error e
  | .ok objs => createLoop src objs objs

/-- `track_new_table` for every created table (`sampler.py:571-572`, `metadata.py:133-136`).  The loop
runs over a Python set; the order of the list stands for its order. -/
def trackTables (T : Tables) (ts : List TableMeta) : Tables := ts.foldl (fun T t => dset T t.key t) T

/-! ### Writing all tables -/

/-- `_flush_buffer` for the table `k`, keeping the history of committed states (latest first).
`sampler.py:676-683`. -/
def flushTo (dialect : Dialect) (strategy : Strategy) (k : Key) (d : DestTable) (cols : List Str)
    (buffer : List (List Val)) : List DbState → Except OutErr (List DbState)
  | [] => .ok []
  | S :: hist =>
    match flushBuffer dialect strategy d cols buffer (S k) with
    | .error e => .error e
    | .ok rows => .ok (S.set k rows :: S :: hist)

/-- What is written to one destination table.  `sampler.py:937-1069,603-709`. -/
structure TableJob where
  key : Key
  strategy : Strategy
  input : OutInput
  rows : List (List Val)

/-- Loop of `_copy_results` over the tables (`sampler.py:946`) with `output_result_set`: the history of
committed states (latest first), the batches committed per table and the error that ended it. -/
def copyTables {σ : Type} (W : Outside σ Val) (dialect : Dialect) :
    List TableJob → List DbState → σ → List DbState × List (Key × List (List (List Val))) × Option DestErr
  | [], hist, _ => (hist, [], none)
  | j :: js, hist, s =>
    match outPlan j.input with
    | .error e => (hist, [], some (.output e))
    | .ok p =>
      match writeAll W (flushTo dialect j.strategy j.key j.input.dest p.colsOut) p j.rows hist s with
      | .error (st, e) => (st.dest, [(j.key, st.written)], some (.output e))
      | .ok st =>
        let (hist', writes, err) := copyTables W dialect js st.dest st.world
        (hist', (j.key, st.written) :: writes, err)

end Subsetter
