import Verif.Model.Compact
import Verif.Model.Merge
import Verif.Model.Planner

/-
Model of `Sampler.sample` (`/repo/subsetter/sampler.py:721-751`) with a database as output: all steps from
loading the metadata to the last commit.
-/
namespace Subsetter

/-- `SamplerConfig` (`config_model.py:87-104`) with a database as output, and the arguments of `sample`.
`remap` stands for the chain of `re.sub` calls. -/
structure RunConfig where
  infer : InferMode := .none
  filters : Dict Str (List (FilterCfg Val)) := []
  compact : CompactConfig := {}
  mult : MultConfig := {}
  remap : Str → Str
  strategy : Strategy := .error
  merge : Bool := false
  truncate : Bool := false
  create : Bool := false

/-- Everything outside of the program: the source database and its engine, the destination's schema and
dialect, and what filters need.  The source does not change while it is read (see `Verif.Model.Snapshots`),
in particular not by what is written to the destination.  `sampler.py:712-751`. -/
structure Setting (σ : Type) where
  fnmatch : Str → Str → Bool
  /-- reflected tables of the source -/
  srcDb : Dict Str TableMeta
  src : Key → List Row
  engine : Engine
  /-- `supports_temp_reopen` -/
  reopen : Bool
  /-- order of the source on tuples of values -/
  le : List Val → List Val → Bool
  world : Outside σ Val
  /-- reflected tables of the destination before the run -/
  dstDb : Dict Str TableMeta
  dialect : Dialect
  /-- generated columns and defaults of these tables -/
  computed : Key → List Str
  default : Key → Str → Val
  /-- order in which the set of created tables is iterated -/
  setOrder : List TableMeta → List TableMeta
  setOrder_perm : ∀ l, (setOrder l).Perm l
  /-- `DESTINATION_BUFFER_SIZE` (`sampler.py:39`) -/
  buffer : Nat := bufferSize

/-- Exceptions leaving `sample`.  `sampler.py:721-751`. -/
inductive RunErr where
  /-- `KeyError` while the source is loaded, or its model ran out of fuel -/
  | load
  | filter (e : FilterErr)
  /-- `parse_table_name` of a key of `filters` -/
  | filterName
  | mult (e : MultErr)
  | dest (e : DestErr)
  | compact (e : CompactErr)
  | exec (e : ExecErr)
  deriving DecidableEq, Repr

/-- `infer_missing_foreign_keys` if configured (`sampler.py:730-733`). -/
def inferStep (infer : InferMode) (T : Tables) : Tables :=
  match infer with
  | .none => T
  | .schema => inferMissing false T
  | .all => inferMissing true T

/-- `_validate_filters` (`sampler.py:1071-1085`). -/
def validateFilters {σ : Type} (W : Outside σ Val) (T : Tables) :
    List (Str × List (FilterCfg Val)) → Except RunErr Unit
  | [] => .ok ()
  | (name, fs) :: rest =>
    if fs.isEmpty then validateFilters W T rest
    else
      match parseTableName name with
      | none => .error .filterName
      | some k =>
        match dget T k with
        | none => validateFilters W T rest
        | some t =>
          match constructFilter W t.columns fs with
          | .error e => .error (.filter e)
          | .ok _ => validateFilters W T rest

/-- What `sample` has computed before it touches the destination (`sampler.py:728-738`): the tables as
reflected, the tables with inferred foreign keys, the multiplied columns and the destination. -/
structure Started where
  raw : Tables
  tables : Tables
  mult : Dict Str (List Str)
  dest : DestMeta

/-- First part of `sample` (`sampler.py:728-738`). -/
def startRun {σ : Type} (C : RunConfig) (D : Setting σ) (p : Plan) : Except RunErr Started :=
  match fromEngine D.fnmatch D.srcDb (dkeys p.queries) false false with
  | none => .error .load
  | some none => .error .load
  | some (some l) =>
    let T := inferStep C.infer l.tables
    match validateFilters D.world T C.filters with
    | .error e => .error e
    | .ok () =>
      match multipliedColumns T C.mult p.passthrough (dkeys p.queries) with
      | .error e => .error (.mult e)
      | .ok m =>
        match destInit D.fnmatch D.dstDb C.remap (dkeys p.queries) with
        | .error e => .error (.dest e)
        | .ok x => .ok ⟨l.tables, T, m, x⟩

/-- `output.create()` if asked for (`sampler.py:739-740`): the schema of the destination afterwards and what is
loaded of it.  Constraints are copied from the reflected source tables, inferred foreign keys are not. -/
def createStep {σ : Type} (C : RunConfig) (D : Setting σ) (r : Started) :
    Except DestErr (Dict Str TableMeta × DestMeta) :=
  if C.create then
    match createdTables r.raw r.dest with
    | .error e => .error e
    | .ok ts =>
      .ok (D.dstDb ++ (D.setOrder ts).map (fun t => (t.key.str, t)),
        ⟨r.dest.remapped, trackTables r.dest.tables (D.setOrder ts), r.dest.extra⟩)
  else .ok (D.dstDb, r.dest)

/-- `output.truncate()` if asked for (`sampler.py:742-743`): the states after each commit. -/
def truncateStep (C : RunConfig) (x : DestMeta) (S : DbState) : Except DestErr (List DbState) :=
  if C.truncate then truncate x S else .ok []

/-- `output.prepare()` (`sampler.py:744,429-430`): the offsets. -/
def prepareStep (C : RunConfig) (T : Tables) (x : DestMeta) (S : DbState) (p : Plan) :
    Except DestErr (Dict Key (Dict Str Int)) :=
  if C.merge then prepare C.remap T x.tables S p.passthrough (dkeys p.queries) else .ok []

/-- The destination table as seen while writing.  Created tables have neither generated columns nor defaults
(`sampler.py:508-515`). -/
def destTable {σ : Type} (D : Setting σ) (k : Key) (t : TableMeta) : DestTable :=
  match dget D.dstDb k.str with
  | some _ => ⟨t.columns, D.computed k, D.default k, t.primaryKey⟩
  | none => ⟨t.columns, [], fun _ => .null, t.primaryKey⟩

/-- The arguments of `output_result_set` for the table `n` (`sampler.py:1041-1068`) and what it looks up
itself (`sampler.py:614-616,657-674`).  The columns of a result are taken to be those of the source table `t`,
which holds for all queries of the planner. -/
def tableJob {σ : Type} (C : RunConfig) (D : Setting σ) (mult : Dict Str (List Str)) (x : DestMeta)
    (offs : Dict Key (Dict Str Int)) (pass : List Str) (n : Str) (k : Key) (t : TableMeta) (rows : List Row) :
    Except RunErr TableJob :=
  match constructFilter D.world t.columns ((dget C.filters n).getD []) with
  | .error e => .error (.filter e)
  | .ok ch =>
    match remapTable C.remap k with
    | none => .error (.dest .badName)
    | some kd =>
      match dget x.tables kd with
      | none => .error (.dest .keyError)
      | some td =>
        .ok ⟨kd, if C.merge && decide (k.str ∈ pass) then .skip else C.strategy,
          ⟨ch, destTable D kd td, offsetsOf offs kd,
            if (dget mult n).isNone then 1 else C.mult.multiplier.toNat, (dget mult n).getD [],
            if D.dialect = .postgresql then td.autoincrement else none, D.buffer⟩,
          rows.map fun r => t.columns.map r.get⟩

/-- Body of the loop of `_copy_results` up to the call of `output_result_set` (`sampler.py:947-1068`); `none`
if there is no query for the table. -/
def readTable {σ : Type} (C : RunConfig) (D : Setting σ) (r : Started) (x : DestMeta)
    (offs : Dict Key (Dict Str Int)) (compact : Dict Key (List Str)) (p : Plan) (temps : Temps) (n : Str) :
    Except RunErr (Option TableJob) :=
  match parseTableName n with
  | none => .error (.exec .badName)
  | some k =>
    match dget p.queries n with
    | none => .ok none
    | some q =>
      match copyRows D.engine r.tables D.le C.compact.startKey compact D.src D.reopen temps k q with
      | .error e => .error (.exec e)
      | .ok rows =>
        match dget r.tables k with
        | none => .error (.exec .keyError)
        | some t =>
          match tableJob C D r.mult x offs p.passthrough n k t rows with
          | .error e => .error e
          | .ok j => .ok (some j)

/-- `_copy_results` (`sampler.py:937-1069`): tables are read and written in turn.  `read` is `readTable`.
Result: the history of committed states (latest first), the batches committed per table and the error. -/
def copyAll {σ : Type} (W : Outside σ Val) (dialect : Dialect) (read : Str → Except RunErr (Option TableJob)) :
    List Str → List DbState → σ → List DbState × List (Key × List (List (List Val))) × Option RunErr
  | [], hist, _ => (hist, [], none)
  | n :: ns, hist, s =>
    match read n with
    | .error e => (hist, [], some e)
    | .ok none => copyAll W dialect read ns hist s
    | .ok (some j) =>
      match outPlan j.input with
      | .error e => (hist, [], some (.dest (.output e)))
      | .ok o =>
        match writeAll W (flushTo dialect j.strategy j.key j.input.dest o.colsOut) o j.rows hist s with
        | .error (st, e) => (st.dest, [(j.key, st.written)], some (.dest (.output e)))
        | .ok st =>
          let (hist', writes, err) := copyAll W dialect read ns st.dest st.world
          (hist', (j.key, st.written) :: writes, err)

/-- Outcome of a run: the schema of the destination, its committed states (latest first), what was written,
and the exception that ended the run.  `sampler.py:721-751`. -/
structure RunResult where
  schema : Dict Str TableMeta
  hist : List DbState
  writes : List (Key × List (List (List Val)))
  err : Option RunErr

/-- The contents of the destination after the run.  `sampler.py:721-751`. -/
def RunResult.final (R : RunResult) : DbState := R.hist.head?.getD fun _ => []

/-- `Sampler.sample` (`sampler.py:721-751`) for a destination holding `S`; `s` is the state of the outside
world (random numbers, plugins).  Sequences of the destination are modelled separately. -/
def sample {σ : Type} (C : RunConfig) (D : Setting σ) (p : Plan) (S : DbState) (s : σ) : RunResult :=
  match startRun C D p with
  | .error e => ⟨D.dstDb, [S], [], some e⟩
  | .ok r =>
    match createStep C D r with
    | .error e => ⟨D.dstDb, [S], [], some (.dest e)⟩
    | .ok (db, x) =>
      match insertOrder x with
      | .error e => ⟨db, [S], [], some (.dest e)⟩
      | .ok order =>
        match truncateStep C x S with
        | .error e => ⟨db, [S], [], some (.dest e)⟩
        | .ok states =>
          let hist := states.reverse ++ [S]
          match prepareStep C r.tables x (hist.head?.getD S) p with
          | .error e => ⟨db, hist, [], some (.dest e)⟩
          | .ok offs =>
            match getCompactColumns r.tables p.passthrough C.compact with
            | .error e => ⟨db, hist, [], some (.compact e)⟩
            | .ok compact =>
              match materializationOrder r.tables compact p with
              | .error e => ⟨db, hist, [], some (.exec e)⟩
              | .ok mat =>
                match materialize D.engine r.tables D.src D.reopen p mat [] with
                | .error e => ⟨db, hist, [], some (.exec e)⟩
                | .ok temps =>
                  let (hist', writes, err) :=
                    copyAll D.world D.dialect (readTable C D r x offs compact p temps) order hist s
                  ⟨db, hist', writes, err⟩

end Subsetter
