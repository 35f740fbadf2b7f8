import Verif.Model.Filters
import Verif.Model.Multiply

/-
Model of `DirectoryOutput.output_result_set` and `DatabaseOutput.output_result_set`
(`/repo/subsetter/sampler.py:344-386,603-709`), of `ConflictInsert` and of the PostgreSQL sequence
functions.
-/
namespace Subsetter

/-- `ConflictStrategy` (`config_model.py:67`). -/
inductive Strategy where
  | error | replace | skip
  deriving DecidableEq, Repr

/-- Destination dialects; `generic` is any other one.  `sampler.py:185-226`. -/
inductive Dialect where
  | sqlite | postgresql | mysql | generic
  deriving DecidableEq, Repr

/-- Exceptions while writing a result set.  `sampler.py:603-709`. -/
inductive OutErr where
  | filter (e : FilterErr)
  /-- `sampler.py:622` -/
  | missingColumns (cs : List Str)
  /-- arithmetic or comparison on a value that is not an integer -/
  | typeError
  /-- `non_pk_columns.remove(...)` (`sampler.py:179`) -/
  | keyError
  /-- `sampler.py:187,191` -/
  | unsupported
  /-- violation of the primary key -/
  | integrity
  /-- an `UPDATE` of a generated column -/
  | generatedColumn
  deriving DecidableEq, Repr

/-! ### `ConflictInsert` -/

/-- `ConflictInsert.__init__` (`sampler.py:164-183`): the strategy used and `non_pk_columns`. -/
def conflictInit (strategy : Strategy) (pk cols : List Str) : Except OutErr (Strategy × List Str) :=
  if pk.isEmpty then .ok (.error, cols)
  else if pk.all fun c => decide (c ∈ cols) then
    let nonPk := cols.filter fun c => decide (c ∉ pk)
    if strategy = .replace ∧ nonPk.isEmpty then .ok (.skip, nonPk) else .ok (strategy, nonPk)
  else .error .keyError

/-- A destination table: columns, generated columns, defaults and primary key.  Unique constraints other than
the primary key, foreign keys and triggers are not modelled here.  `sampler.py:603-675`. -/
structure DestTable where
  columns : List Str
  /-- generated columns; their values are not modelled -/
  computed : List Str
  default : Str → Val
  pk : List Str

/-- The values of the primary key of a row.  `sampler.py:185-226`. -/
def pkOf (d : DestTable) (r : Row) : List Val := d.pk.map r.get

/-- The complete row stored for a (partial) row: columns that are not given get their default.
`sampler.py:676-683`. -/
def fullRow (d : DestTable) (r : Row) : Row :=
  (d.columns.filter fun c => decide (c ∉ d.computed)).map fun c => (c, (dget r c).getD (d.default c))

/-- The columns assigned by the update part: `non_pk_columns` on MySQL and PostgreSQL
(`sampler.py:199-201,209-212`), all columns of the table on SQLite (`set_=stmt.excluded`,
`sampler.py:220-223`). -/
def updateColumns (dialect : Dialect) (d : DestTable) (nonPk : List Str) : List Str :=
  match dialect with
  | .sqlite => d.columns
  | _ => nonPk

/-- `UPDATE ... SET c = new.c` for the columns `cs`.  `sampler.py:196-226`. -/
def updateRow (cs : List Str) (new old : Row) : Row :=
  old.map fun p => (p.1, if p.1 ∈ cs then new.get p.1 else p.2)

/-- Insertion of one row (already complete): rows with the same primary key are a conflict.  A table
without primary key never has one.  `sampler.py:185-226`. -/
def insertOne (strategy : Strategy) (d : DestTable) (upd : List Str) (new : Row) (T : List Row) :
    Except OutErr (List Row) :=
  if d.pk ≠ [] ∧ (T.any fun r => decide (pkOf d r = pkOf d new)) then
    match strategy with
    | .error => .error .integrity
    | .skip => .ok T
    | .replace => .ok (T.map fun r => if pkOf d r = pkOf d new then updateRow upd new r else r)
  else .ok (T ++ [new])

/-- Insertion of several rows in order, all or nothing.  `sampler.py:676-683`. -/
def insertMany (strategy : Strategy) (d : DestTable) (upd : List Str) :
    List Row → List Row → Except OutErr (List Row)
  | [], T => .ok T
  | r :: rs, T =>
    match insertOne strategy d upd (fullRow d r) T with
    | .error e => .error e
    | .ok T' => insertMany strategy d upd rs T'

/-- `_flush_buffer` (`sampler.py:676-683`): one transaction that executes `ConflictInsert` for the rows
of the buffer. -/
def flushBuffer (dialect : Dialect) (strategy : Strategy) (d : DestTable) (cols : List Str)
    (buffer : List (List Val)) (T : List Row) : Except OutErr (List Row) :=
  match conflictInit strategy d.pk cols with
  | .error e => .error e
  | .ok (st, nonPk) =>
    if dialect = .generic ∧ st ≠ .error then .error .unsupported
    else if st = .replace ∧ ((updateColumns dialect d nonPk).any fun c => decide (c ∈ d.computed)) then
      .error .generatedColumn
    else insertMany st d (updateColumns dialect d nonPk) (buffer.map fun row => cols.zip row) T

/-! ### Transformation of rows -/

/-- Indices of the columns in a set, e.g. `multiplied_indexes` (`sampler.py:372-376,651-655`). -/
def indexesOf (cols : List Str) (p : Str → Bool) : List Nat :=
  (cols.zipIdx.filter fun x => p x.1).map Prod.snd

/-- `for index in multiplied_indexes: out_row[index] = _multiply_column(...)`
(`sampler.py:381-384,688-691`). -/
def multiplyAt (m i : Int) : List Nat → List Val → Except OutErr (List Val)
  | [], row => .ok row
  | k :: ks, row =>
    match row[k]? with
    | none => .error .typeError
    | some v =>
      match multiplyColumn v m i with
      | none => .error .typeError
      | some w => multiplyAt m i ks (row.set k w)

/-- `offsets` (`sampler.py:643-649`); an empty dictionary counts as none. -/
def offsetIndexes (cols : List Str) (offsets : Dict Str Int) : List (Nat × Int) :=
  cols.zipIdx.filterMap fun x => (dget offsets x.1).map fun o => (x.2, o)

/-- `for index, offset in offsets: ... out_row[index] += offset` (`sampler.py:692-695`). -/
def shiftAt : List (Nat × Int) → List Val → Except OutErr (List Val)
  | [], row => .ok row
  | (k, o) :: ks, row =>
    match row[k]? with
    | none => .error .typeError
    | some .null => shiftAt ks row
    | some (.int v) => shiftAt ks (row.set k (.int (v + o)))
    | some _ => .error .typeError

/-- What `output_result_set` computes before its loop.  `sampler.py:603-675`. -/
structure OutPlan where
  colsOut : List Str
  views : List (View Val)
  multiplier : Nat
  multiplied : List Nat
  offsets : List (Nat × Int)
  /-- `autoinc_index`, `none` for -1 -/
  autoinc : Option Nat
  /-- rows the buffer holds -/
  buffer : Nat

/-- One copy of a row (`sampler.py:687-695`). -/
def outRow {σ : Type} (W : Outside σ Val) (p : OutPlan) (x : List Val × Nat) (s : σ) :
    Except OutErr (List Val × σ) :=
  match runViews W p.views x.1 s with
  | .error e => .error (.filter e)
  | .ok (row, s') =>
    match multiplyAt p.multiplier x.2 p.multiplied row with
    | .error e => .error e
    | .ok row1 =>
      match shiftAt p.offsets row1 with
      | .error e => .error e
      | .ok row2 => .ok (row2, s')

/-- The pairs `(row, iteration)` in the order of the two nested loops
(`sampler.py:378-379,685-686`). -/
def copies (multiplier : Nat) (rows : List (List Val)) : List (List Val × Nat) :=
  rows.flatMap fun r => (List.range multiplier).map fun i => (r, i)

/-! ### `DirectoryOutput` -/

/-- The loop of `DirectoryOutput.output_result_set` (`sampler.py:378-386`): the objects written, one per
line, the state of the outside world and the error that ended the loop, if any. -/
def directoryLoop {σ : Type} (W : Outside σ Val) (p : OutPlan) :
    List (List Val × Nat) → σ → List Row × σ × Option OutErr
  | [], s => ([], s, none)
  | x :: xs, s =>
    match outRow W p x s with
    | .error e => ([], s, some e)
    | .ok (row, s') =>
      let (lines, s'', err) := directoryLoop W p xs s'
      (p.colsOut.zip row :: lines, s'', err)

/-- `DirectoryOutput.output_result_set` (`sampler.py:358-386`); there are no offsets. -/
def directoryOutput {σ : Type} (W : Outside σ Val) (ch : Chain Val) (multiplier : Nat) (mult : List Str)
    (rows : List (List Val)) (s : σ) : List Row × σ × Option OutErr :=
  directoryLoop W ⟨ch.colsOut, ch.views, multiplier, indexesOf ch.colsOut (fun c => decide (c ∈ mult)), [], none, 0⟩
    (copies multiplier rows) s

/-! ### `DatabaseOutput` -/

/-- `DESTINATION_BUFFER_SIZE` (`sampler.py:39`).  The model takes any size and the theorems hold for all of them; this is
the one of the program. -/
def bufferSize : Nat := 1024

/-- The inputs of `DatabaseOutput.output_result_set`.  `sampler.py:603-613`. -/
structure OutInput where
  chain : Chain Val
  dest : DestTable
  /-- `self.table_offsets.get((schema, table_name))` -/
  offsets : Dict Str Int
  multiplier : Nat
  mult : List Str
  /-- the autoincrement column if the engine needs updating (`sampler.py:657-668`) -/
  autoincrement : Option Str
  /-- `DESTINATION_BUFFER_SIZE`, see `bufferSize` -/
  buffer : Nat := bufferSize

/-- Part of `output_result_set` before the loop (`sampler.py:618-668`). -/
def outPlan (x : OutInput) : Except OutErr OutPlan :=
  let missing := x.chain.colsOut.filter fun c => decide (c ∉ x.dest.columns)
  if missing ≠ [] then .error (.missingColumns missing)
  else
    let comp := x.chain.colsOut.filter fun c => decide (c ∈ x.dest.computed)
    let (cols, views) :=
      if comp = [] then (x.chain.colsOut, x.chain.views)
      else
        let o : SimpleView Val := mkOmit x.chain.colsOut comp
        (o.colsOut, x.chain.views ++ [.simple o])
    .ok ⟨cols, views, x.multiplier, indexesOf cols fun c => decide (c ∈ x.mult),
      offsetIndexes cols x.offsets, x.autoincrement.bind fun c => firstIndex c cols, x.buffer⟩

/-- `autoinc_max_written` after a row (`sampler.py:696-702`); `.null` is `None`.  `max` of different
types is an error. -/
def autoMax (p : OutPlan) (acc : Val) (row : List Val) : Except OutErr Val :=
  match p.autoinc with
  | none => .ok acc
  | some k =>
    match row[k]? with
    | none => .error .typeError
    | some v =>
      match acc, v with
      | .null, v => .ok v
      | .int a, .int b => .ok (.int (if a < b then b else a))
      | _, _ => .error .typeError

/-- State of the loop; `written` are the batches committed so far.  `sampler.py:676-709`. -/
structure WState (σ D : Type) where
  buffer : List (List Val)
  dest : D
  auto : Val
  world : σ
  written : List (List (List Val))

/-- Body of the inner loop (`sampler.py:687-705`); `flush` is `_flush_buffer`.  Errors come with the
state at that point: everything committed stays. -/
def writeStep {σ D : Type} (W : Outside σ Val) (flush : List (List Val) → D → Except OutErr D)
    (p : OutPlan) (st : WState σ D) (x : List Val × Nat) : Except (WState σ D × OutErr) (WState σ D) :=
  match outRow W p x st.world with
  | .error e => .error (st, e)
  | .ok (row, s') =>
    match autoMax p st.auto row with
    | .error e => .error (st, e)
    | .ok a =>
      let buf := st.buffer ++ [row]
      if p.buffer < buf.length then
        match flush buf st.dest with
        | .error e => .error (st, e)
        | .ok d => .ok ⟨[], d, a, s', st.written ++ [buf]⟩
      else .ok ⟨buf, st.dest, a, s', st.written⟩

/-- The loops (`sampler.py:685-705`). -/
def writeLoop {σ D : Type} (W : Outside σ Val) (flush : List (List Val) → D → Except OutErr D)
    (p : OutPlan) : List (List Val × Nat) → WState σ D → Except (WState σ D × OutErr) (WState σ D)
  | [], st => .ok st
  | x :: xs, st =>
    match writeStep W flush p st x with
    | .error e => .error e
    | .ok st' => writeLoop W flush p xs st'

/-- The loops and the last flush (`sampler.py:670-707`). -/
def writeAll {σ D : Type} (W : Outside σ Val) (flush : List (List Val) → D → Except OutErr D)
    (p : OutPlan) (rows : List (List Val)) (d : D) (s : σ) :
    Except (WState σ D × OutErr) (WState σ D) :=
  match writeLoop W flush p (copies p.multiplier rows) ⟨[], d, .null, s, []⟩ with
  | .error e => .error e
  | .ok st =>
    if st.buffer = [] then .ok st
    else
      match flush st.buffer st.dest with
      | .error e => .error (st, e)
      | .ok d' => .ok ⟨[], d', st.auto, st.world, st.written ++ [st.buffer]⟩

/-- `DatabaseOutput.output_result_set` (`sampler.py:603-707`) without the sequence update. -/
def outputResultSet {σ : Type} (W : Outside σ Val) (dialect : Dialect) (strategy : Strategy)
    (x : OutInput) (rows : List (List Val)) (T : List Row) (s : σ) :
    Except (WState σ (List Row) × OutErr) (WState σ (List Row)) :=
  match outPlan x with
  | .error e => .error (⟨[], T, .null, s, []⟩, e)
  | .ok p => writeAll W (flushBuffer dialect strategy x.dest p.colsOut) p rows T s

/-! ### Sequences -/

/-- A PostgreSQL sequence: the last value and whether it was handed out; `nextval` returns
`last + 1` if so and `last` otherwise (increment 1).  `sampler.py:244-295`. -/
structure Sequence where
  last : Int
  called : Bool

/-- What `nextval` would return.  `sampler.py:244-295`. -/
def Sequence.next (q : Sequence) : Int := if q.called then q.last + 1 else q.last

/-- The value passed to `_autoincrement_update` (`sampler.py:709`); other than integers are not modelled. -/
def autoValue : Val → Option Int
  | .int v => some v
  | _ => none

/-- `_autoincrement_update` (`sampler.py:269-295`) for a PostgreSQL table with an autoincrement column.
`currval` is the value of `currval` in the session `_autoincrement_get` happens to use; `none` if not
yet defined there. -/
def autoincrementUpdate (currval : Option Int) (value : Option Int) (q : Sequence) : Sequence :=
  match value with
  | none => q
  | some v =>
    match currval with
    | some c => if c > v then q else ⟨v, true⟩
    | none => ⟨v, true⟩

/-- `output_result_set` with the update of the sequence at its end (`sampler.py:603-709`): the batches
committed, the sequence and the error. -/
def outputAndUpdate {σ : Type} (W : Outside σ Val) (strategy : Strategy) (x : OutInput)
    (rows : List (List Val)) (T : List Row) (s : σ) (currval : Option Int) (q : Sequence) :
    List (List (List Val)) × Sequence × Option OutErr :=
  match outputResultSet W .postgresql strategy x rows T s with
  | .error (st, e) => (st.written, q, some e)
  | .ok st => (st.written, autoincrementUpdate currval (autoValue st.auto) q, none)

end Subsetter
