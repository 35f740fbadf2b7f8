import Verif.Model.Metadata
import Verif.Model.Sql

/-
Model of `/repo/subsetter/planner.py` and of the planner part of
`/repo/subsetter/config_model.py`.
-/
namespace Subsetter

/-- `PlannerConfig.TargetConfig` (`config_model.py:15-21`).  `amount` is a natural number. -/
structure TargetConfig where
  all : Bool := false
  percent : Option Rat := none
  amount : Option Nat := none
  like : Dict Str (List Str) := []
  in_ : Dict Str (List Val) := []
  sql : Option Str := none

/-- `PlannerConfig.ExtraFKConfig` (`config_model.py:27-44`); its validator is `ExtraFk.Valid`. -/
structure ExtraFk where
  srcTable : Str
  srcColumns : List Str
  dstTable : Str
  dstColumns : List Str

/-- `check_columns_match` (`config_model.py:33-44`). -/
def ExtraFk.Valid (x : ExtraFk) : Prop :=
  x.srcColumns ≠ [] ∧ x.dstColumns.length = x.srcColumns.length ∧ x.srcColumns.Nodup ∧
  x.dstColumns.Nodup

/-- `PlannerConfig.ColumnConstraint` (`config_model.py:46-49`) with a scalar value. -/
structure ColumnConstraint where
  column : Str
  operator : Op
  value : Val

/-- `infer_foreign_keys` (`config_model.py:58`). -/
inductive InferMode where
  | none
  | schema
  | all
  deriving DecidableEq

/-- `PlannerConfig` (`config_model.py:14-59`).  `ignore_fks` entries are pairs (source table,
destination table). -/
structure PlannerConfig where
  tableConstraints : Dict Str (List ColumnConstraint) := []
  select : List Str := []
  targets : Dict Str TargetConfig := []
  ignore : List Str := []
  passthrough : List Str := []
  ignoreFks : List (Str × Str) := []
  extraFks : List ExtraFk := []
  infer : InferMode := .none
  includeDependencies : Bool := true

/-- Exceptions leaving the planner.  The first group are the `ValueError`s of the documented
checks; `keyError`, `assertion`, `index` and `fuel` are internal errors.
`planner.py:122,128,234,259,284-285,349,356`, `common.py:26`. -/
inductive PlanErr where
  /-- `parse_table_name` failed (`common.py:26`) -/
  | badName
  /-- `planner.py:122` -/
  | unselectedTarget (t : Str)
  /-- `planner.py:128` -/
  | cycle (c : List Str)
  /-- `planner.py:234` -/
  | ignoredFk (t d : Key)
  /-- `planner.py:259` -/
  | passthroughFk (t d : Key)
  /-- `planner.py:349` -/
  | constraintReverse (t : Key)
  /-- `planner.py:356` -/
  | constraintColumn (t : Key) (c : Str)
  | keyError
  | assertion
  | index
  | fuel
  deriving DecidableEq, Repr

/-- The documented validity checks, as opposed to internal errors.
`planner.py:122,128,234,259,349,356`, `common.py:26`. -/
def PlanErr.isUser : PlanErr → Bool
  | .keyError => false
  | .assertion => false
  | .index => false
  | .fuel => false
  | _ => true

/-- `parse_table_name` raising.  `common.py:23-27`. -/
def parseName (s : Str) : Except PlanErr Key :=
  match parseTableName s with
  | none => .error .badName
  | some k => .ok k

/-- `{parse_table_name(table) for table in names}` (`planner.py:38-41`). -/
def parseSet (names : List Str) : Except PlanErr (List Key) :=
  match names.mapM parseName with
  | .error e => .error e
  | .ok ks => .ok (toSet ks)

/-- One iteration of `_remove_ignore_fks` (`planner.py:207-223`). -/
def removeIgnoreFk (T : Tables) (x : Str × Str) : Except PlanErr Tables :=
  match parseName x.1 with
  | .error e => .error e
  | .ok src =>
    match parseName x.2 with
    | .error e => .error e
    | .ok dst =>
      match dget T src with
      | none => .ok T
      | some _ => .ok (updTable T src fun t =>
          { t with foreignKeys := t.foreignKeys.filter fun fk => decide (fk.dst ≠ dst) })

/-- `_remove_ignore_fks` (`planner.py:205-223`). -/
def removeIgnoreFks : List (Str × Str) → Tables → Except PlanErr Tables
  | [], T => .ok T
  | x :: xs, T =>
    match removeIgnoreFk T x with
    | .error e => .error e
    | .ok T' => removeIgnoreFks xs T'

/-- One iteration of `_add_extra_fks` (`planner.py:143-203`). -/
def addExtraFk (T : Tables) (x : ExtraFk) : Except PlanErr Tables :=
  match parseName x.srcTable with
  | .error e => .error e
  | .ok src =>
    match parseName x.dstTable with
    | .error e => .error e
    | .ok dst =>
      match dget T src with
      | none => .ok T
      | some t =>
        if x.srcColumns.all (fun c => decide (c ∈ t.columns)) then
          match dget T dst with
          | none => .ok T
          | some d =>
            if x.dstColumns.all (fun c => decide (c ∈ d.columns)) then
              .ok (updTable T src fun t =>
                { t with foreignKeys := t.foreignKeys ++
                    [⟨x.srcColumns, dst.1, dst.2, x.dstColumns⟩] })
            else .ok T
        else .ok T

/-- `_add_extra_fks` (`planner.py:141-203`). -/
def addExtraFks : List ExtraFk → Tables → Except PlanErr Tables
  | [], T => .ok T
  | x :: xs, T =>
    match addExtraFk T x with
    | .error e => .error e
    | .ok T' => addExtraFks xs T'

/-- The first key of the table that satisfies `bad`, as the raise inside a `for` loop.
`planner.py:232-237,254-262`. -/
def firstFk (bad : ForeignKey → Bool) (t : TableMeta) : Option ForeignKey := t.foreignKeys.find? bad

/-- `_check_ignore_tables` (`planner.py:225-237`). -/
def checkIgnore (ignore : List Key) : List TableMeta → Except PlanErr Unit
  | [] => .ok ()
  | t :: ts =>
    if t.key ∈ ignore then checkIgnore ignore ts
    else
      match firstFk (fun fk => decide (fk.dst ∈ ignore)) t with
      | some fk => .error (.ignoredFk t.key fk.dst)
      | none => checkIgnore ignore ts

/-- `_check_passthrough_tables` (`planner.py:239-264`): `pass` is the set being iterated, `todo`
the rest of the iteration; returns the passthrough tables that were found. -/
def checkPassthrough (T : Tables) (pass : List Key) : List Key → Except PlanErr (List Key)
  | [] => .ok []
  | k :: todo =>
    match dget T k with
    | none => checkPassthrough T pass todo
    | some t =>
      match firstFk (fun fk => decide (fk.dst ∉ pass)) t with
      | some fk => .error (.passthroughFk k fk.dst)
      | none =>
        match checkPassthrough T pass todo with
        | .error e => .error e
        | .ok found => .ok (k :: found)

/-- The source node `""` (`planner.py:114`). -/
def sourceNode : Str := []

/-- The graph given to the solver (`planner.py:115-118`). -/
def planGraph (T : Tables) (targets : List Str) (pass ignore : List Key) : Graph Str :=
  dset (asGraph T (setUnion pass ignore)) sourceNode (toSet targets)

/-- Translation of solver exceptions (`planner.py:124-130`).  Only `CycleException` is caught. -/
def solverErr : SolverErr Str → PlanErr
  | .keyError _ => .keyError
  | .assertion => .assertion
  | .cycleDetected => .keyError
  | .cycle c => .cycle c
  | .fuel => .fuel

/-- `_solve_order` (`planner.py:109-139`). -/
def solveOrder (T : Tables) (targets : List Str) (pass ignore : List Key) :
    Except PlanErr (List Str) :=
  let graph := planGraph T targets pass ignore
  match targets.find? (fun t => (dget graph t).isNone) with
  | some t => .error (.unselectedTarget t)
  | none =>
    match orderGraph graph sourceNode with
    | .error e => .error (solverErr e)
    | .ok order => .ok order.tail

/-- `_is_distinct` (`planner.py:314-323`); every `sa.Table` has a (possibly empty) primary key
constraint. -/
def isDistinct (t : TableMeta) (cols : List Str) : Bool :=
  (t.primaryKey :: t.uniques).any fun cs => cs.all fun c => decide (c ∈ cols)

/-- The identifier of a table in a plan.  `planner.py:84-87,376-379,433-436`. -/
def Key.id (k : Key) (sampled : Bool) : TableId := ⟨k.1, k.2, sampled⟩

/-- One element of `fk_joins` (`planner.py:326-342`). -/
def fkJoin (T : Tables) (t : TableMeta) (fk : ForeignKey) : Except PlanErr Join :=
  match dget T fk.dst with
  | none => .error .keyError
  | some d => .ok ⟨fk.dst.id true, fk.columns, fk.dstColumns,
      isDistinct t fk.columns || isDistinct d fk.dstColumns⟩

/-- `conf_constraints_sql` (`planner.py:354-367`). -/
def constraintClauses (t : TableMeta) : List ColumnConstraint → Except PlanErr (List Where)
  | [] => .ok []
  | c :: cs =>
    if c.column ∈ t.columns then
      match constraintClauses t cs with
      | .error e => .error e
      | .ok ws => .ok (.op c.operator c.column c.value :: ws)
    else .error (.constraintColumn t.key c.column)

/-- `target_constraints` (`planner.py:391-428`).  Clause tag 0 is used for the random clause: a
table has at most one. -/
def targetClauses (x : TargetConfig) : List Where :=
  if x.all then []
  else
    (match x.percent with | none => [] | some p => [.random (p / 100) 0]) ++
    (match x.sql with | none => [] | some s => [.sql s]) ++
    (x.like.flatMap fun p => p.2.map fun pat => .op .like p.1 (.str pat)) ++
    (x.in_.map fun p => .inVals [p.1] (p.2.map fun v => [v]) false)

/-- Translation of `simplify` failures.  `planner.py:443-446`, `plan_model.py:357`. -/
def simpErr : SimpErr → PlanErr
  | .index => .index
  | .fuel => .fuel

/-- The statement for rows found through relationships (`planner.py:372-387`). -/
def relationSel (k : Key) (joins : List Join) (outer : Bool) (cs : List Where) : Sel :=
  .mk none (k.id false) (some (.and cs)) none (some joins) outer 0

/-- The statement for rows chosen by the target filters (`planner.py:430-440`). -/
def targetSel (k : Key) (x : TargetConfig) : Sel :=
  .mk none (k.id false) (some (.and (targetClauses x))) x.amount none false 0

/-- `_plan_table` (`planner.py:266-447`). -/
def planTable (T : Tables) (constraints : Dict Str (List ColumnConstraint)) (t : TableMeta)
    (processed : List Key) (target : Option TargetConfig) : Except PlanErr TableQuery :=
  let fks := sortFks (t.foreignKeys.filter fun fk => decide (fk.dst ∈ processed))
  let revs := sortFks (t.revForeignKeys.filter fun fk => decide (fk.dst ∈ processed))
  if !fks.isEmpty && !revs.isEmpty then .error .assertion
  else if target.isNone && fks.isEmpty && revs.isEmpty then .error .assertion
  else if target.isSome && !fks.isEmpty then .error .assertion
  else
    let revs := match target with
      | some x => if x.all then [] else revs
      | none => revs
    match (if fks.isEmpty then revs else fks).mapM (fkJoin T t) with
    | .error e => .error e
    | .ok joins =>
      let conf := (dget constraints t.key.str).getD []
      if !conf.isEmpty && !revs.isEmpty then .error (.constraintReverse t.key)
      else
        match constraintClauses t conf with
        | .error e => .error e
        | .ok cs =>
          let s1 := if fks.isEmpty && revs.isEmpty then []
            else [relationSel t.key joins fks.isEmpty cs]
          let s2 := match target with
            | none => []
            | some x => [targetSel t.key x]
          match (Stmt.union (s1 ++ s2)).simplify with
          | .error e => .error (simpErr e)
          | .ok st => .ok (.statement st)

/-- The query of a passthrough table (`planner.py:81-89`). -/
def passthroughQuery (k : Key) : TableQuery :=
  .statement (.select (.mk none (k.id false) none none none false 0))

/-- `for table in order` (`planner.py:91-99`). -/
def planLoop (T : Tables) (cfg : PlannerConfig) :
    List Str → List Key → Dict Str TableQuery → Except PlanErr (Dict Str TableQuery)
  | [], _, queries => .ok queries
  | name :: order, processed, queries =>
    match parseName name with
    | .error e => .error e
    | .ok k =>
      match dget T k with
      | none => .error .keyError
      | some t =>
        match planTable T cfg.tableConstraints t (setAdd processed k) (dget cfg.targets name) with
        | .error e => .error e
        | .ok q => planLoop T cfg order (setAdd processed k) (dset queries name q)

/-- The foreign keys the planner works with (`planner.py:66-71`). -/
def rewriteFks (cfg : PlannerConfig) (T : Tables) : Except PlanErr Tables :=
  match removeIgnoreFks cfg.ignoreFks
      (match cfg.infer with
        | .none => T
        | .schema => inferMissing false T
        | .all => inferMissing true T) with
  | .error e => .error e
  | .ok T' => addExtraFks cfg.extraFks T'

/-- The rest of `_plan_internal` (`planner.py:72-107`) for given foreign keys. -/
def planTables (cfg : PlannerConfig) (ignore pass : List Key) (T : Tables) :
    Except PlanErr Plan :=
  match (if cfg.includeDependencies then checkIgnore ignore (T.map Prod.snd) else .ok ()) with
  | .error e => .error e
  | .ok () =>
    match checkPassthrough T pass pass with
    | .error e => .error e
    | .ok found =>
      match solveOrder T (dkeys cfg.targets) found ignore with
      | .error e => .error e
      | .ok order =>
        match computeReverseKeys T with
        | none => .error .keyError
        | some T' =>
          match planLoop T' cfg order []
              (found.foldl (fun q k => dset q k.str (passthroughQuery k)) []) with
          | .error e => .error e
          | .ok queries => .ok ⟨queries, found.map Key.str⟩

/-- `Planner(source, config)._plan_internal()` (`planner.py:34-41, 65-107`) on loaded tables. -/
def planInternal (cfg : PlannerConfig) (T : Tables) : Except PlanErr Plan :=
  match parseSet cfg.ignore with
  | .error e => .error e
  | .ok ignore =>
    match parseSet cfg.passthrough with
    | .error e => .error e
    | .ok pass =>
      match rewriteFks cfg T with
      | .error e => .error e
      | .ok T' => planTables cfg ignore pass T'

/-- `Planner(source, config).plan()` (`planner.py:43-63`). -/
def plan (fnmatch : Str → Str → Bool) (db : Dict Str TableMeta) (cfg : PlannerConfig) :
    Except PlanErr Plan :=
  match fromEngine fnmatch db (cfg.select ++ cfg.passthrough) cfg.includeDependencies false with
  | none => .error .keyError
  | some none => .error .fuel
  | some (some l) => planInternal cfg l.tables

end Subsetter
