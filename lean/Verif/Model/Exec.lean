import Verif.Model.Metadata
import Verif.Model.Sql

/-
Model of how `/repo/subsetter/sampler.py` executes a plan: materialisation of referenced tables into
temporary tables and evaluation of the queries (`_materialization_order`, `_materialize_tables` and
the query part of `_copy_results`), with `sql_build_context` of `/repo/subsetter/metadata.py`.
-/
namespace Subsetter

/-- The key of a table identifier.  `metadata.py:222-223`. -/
def TableId.key (t : TableId) : Key := (t.schema, t.name)

mutual
/-- Table identifiers on which `build` calls its context, in order (`plan_model.py`): the table
itself, the joined tables, then those of subqueries.  `plan_model.py:88-96,115-118,153-156`. -/
def Where.refs : Where → List TableId
  | .inStmt _ st _ => Stmt.refs st
  | .and cs => Where.refss cs
  | .or cs => Where.refss cs
  | _ => []
/-- The identifiers of the conditions of a clause.  `plan_model.py:118,156`. -/
def Where.refss : List Where → List TableId
  | [] => []
  | c :: cs => Where.refs c ++ Where.refss cs
/-- The identifiers of a select.  `plan_model.py:253-314`. -/
def Sel.refs : Sel → List TableId
  | .mk _ t none _ joins _ _ => t :: (joins.getD []).map Join.right
  | .mk _ t (some w) _ joins _ _ => t :: ((joins.getD []).map Join.right ++ Where.refs w)
/-- The identifiers of the statements of a union.  `plan_model.py:345`. -/
def Sel.refss : List Sel → List TableId
  | [] => []
  | s :: ss => Sel.refs s ++ Sel.refss ss
/-- The identifiers of a statement.  `plan_model.py:253-314,344-345`. -/
def Stmt.refs : Stmt → List TableId
  | .select s => Sel.refs s
  | .union ss => Sel.refss ss
end

/-- Table identifiers used by a query; raw SQL uses none.  `plan_model.py:402-410`. -/
def TableQuery.refs : TableQuery → List TableId
  | .sql _ => []
  | .statement s => s.refs

/-- The sampled tables a query refers to, one entry per reference.
`sampler.py:820-844`, `metadata.py:214-222`. -/
def sampledRefs (q : TableQuery) : List Key := (q.refs.filter fun t => t.sampled).map TableId.key

/-- Exceptions of plan execution.  `attributeError` is raised when the statement of raw SQL is used as a subquery or to
create a temporary table; here raw SQL is taken to work there, see `Model/SqlRun.lean`.
`sampler.py:811-1069`, `metadata.py:222-223`, `plan_model.py:410`. -/
inductive ExecErr where
  | badName
  | keyError
  | cycle
  | fuel
  | attributeError
  deriving DecidableEq, Repr

/-- `counter[key] = counter.get(key, 0) + 1` (`sampler.py:825, 841`). -/
def countKey (c : Dict Key Nat) (k : Key) : Dict Key Nat := dset c k ((dget c k).getD 0 + 1)

/-- Tables joined at copy time to look up compacted values (`sampler.py:837-841`), one entry per
foreign key. -/
def compactRefs (compact : Dict Key (List Str)) (t : TableMeta) : List Key :=
  (t.foreignKeys.filter fun fk =>
    fk.dstColumns.any fun c => decide (c ∈ (dget compact fk.dst).getD [])).map ForeignKey.dst

/-- `max_ref_counts[key] = max(max_ref_counts.get(key, 0), count)` (`sampler.py:843-844`). -/
def maxCount (m : Dict Key Nat) (p : Key × Nat) : Dict Key Nat :=
  dset m p.1 (max ((dget m p.1).getD 0) p.2)

/-- `dep_graph` and `max_ref_counts` (`sampler.py:828-844`). -/
def depLoop (T : Tables) (compact : Dict Key (List Str)) :
    List (Str × TableQuery) → Graph Key → Dict Key Nat → Except ExecErr (Graph Key × Dict Key Nat)
  | [], g, m => .ok (g, m)
  | (name, q) :: qs, g, m =>
    if q.refs.all fun t => (dget T t.key).isSome then
      match parseTableName name with
      | none => .error .badName
      | some k =>
        match dget T k with
        | none => .error .keyError
        | some t =>
          let c := (sampledRefs q).foldl countKey []
          let c' := (compactRefs compact t).foldl countKey c
          depLoop T compact qs (dset g k (dkeys c)) (c'.foldl maxCount m)
    else .error .keyError

/-- `_materialization_order` (`sampler.py:811-851`). -/
def materializationOrder (T : Tables) (compact : Dict Key (List Str)) (p : Plan) :
    Except ExecErr (List (Key × Nat)) :=
  match depLoop T compact p.queries [] [] with
  | .error e => .error e
  | .ok (g, m) =>
    match toposort g with
    | .error .cycleDetected => .error .cycle
    | .error .fuel => .error .fuel
    | .error _ => .error .keyError
    | .ok order => .ok (order.filterMap fun k => (dget m k).map fun n => (k, n))

/-- Temporary tables: `meta.temp_tables` (`metadata.py:69`), by table and copy number. -/
abbrev Temps := Dict (Key × Nat) (List Row)

/-- `_context` (`metadata.py:213-223`) called on the given identifiers in order: which table object
each call returns (`none` for a source table), or `none` for a `KeyError`.  `counts` is
`reference_count`. -/
def buildContext (T : Tables) (temps : Temps) (reopen : Bool) :
    Dict Key Nat → List TableId → Option (List (Option (Key × Nat)))
  | _, [] => some []
  | counts, t :: ts =>
    if t.sampled then
      let idx := if reopen then 0 else (dget counts t.key).getD 0
      let counts' := if reopen then counts else dset counts t.key (idx + 1)
      match dget temps (t.key, idx) with
      | none => none
      | some _ => (buildContext T temps reopen counts' ts).map fun l => some (t.key, idx) :: l
    else
      match dget T t.key with
      | none => none
      | some _ => (buildContext T temps reopen counts ts).map fun l => none :: l

/-- The tables a query sees.  All copies of a temporary table have the same rows, so copy 0 stands
for all of them.  `metadata.py:210-225`. -/
def execEnv (T : Tables) (src : Key → List Row) (temps : Temps) : Env where
  rows := fun t => if t.sampled then (dget temps (t.key, 0)).getD [] else src t.key
  pk := fun t => ((dget T t.key).map TableMeta.primaryKey).getD []

/-- `query.build(meta.sql_build_context())` and execution.  `sampler.py:853-1069`. -/
def runQuery (E : Engine) (T : Tables) (src : Key → List Row) (reopen : Bool) (temps : Temps)
    (q : TableQuery) : Except ExecErr (List Row) :=
  match buildContext T temps reopen [] q.refs with
  | none => .error .keyError
  | some _ => .ok (q.eval E (execEnv T src temps))

/-- The copies made for MySQL (`sampler.py:920-930`): indexes `1 .. ref_count - 1`. -/
def addCopies (temps : Temps) (k : Key) (rows : List Row) : List Nat → Temps
  | [] => temps
  | i :: is => addCopies (dset temps (k, i) rows) k rows is

/-- `_materialize_tables` (`sampler.py:872-935`); the row number column added for compaction is
modelled separately. -/
def materialize (E : Engine) (T : Tables) (src : Key → List Row) (reopen : Bool) (p : Plan) :
    List (Key × Nat) → Temps → Except ExecErr Temps
  | [], temps => .ok temps
  | (k, n) :: order, temps =>
    match dget T k with
    | none => .error .keyError
    | some _ =>
      match dget p.queries k.str with
      | none => .error .keyError
      | some q =>
        match runQuery E T src reopen temps q with
        | .error e => .error e
        | .ok rows =>
          let temps' := dset temps (k, 0) rows
          let temps'' := if reopen then temps' else addCopies temps' k rows (List.range' 1 (n - 1))
          materialize E T src reopen p order temps''

/-- The rows of one planned table (`sampler.py:956-959`). -/
def sampleRows (E : Engine) (T : Tables) (src : Key → List Row) (reopen : Bool) (temps : Temps)
    (k : Key) (q : TableQuery) : Except ExecErr (List Row) :=
  match dget temps (k, 0) with
  | some rows => .ok rows
  | none => runQuery E T src reopen temps q

/-- The rows copied for each table (`_copy_results`, `sampler.py:946-959`): from the temporary
table if there is one, else by running the query. -/
def copyResults (E : Engine) (T : Tables) (src : Key → List Row) (reopen : Bool) (p : Plan)
    (temps : Temps) : List Str → Except ExecErr (List (Key × List Row))
  | [] => .ok []
  | name :: names =>
    match parseTableName name with
    | none => .error .badName
    | some k =>
      match dget p.queries name with
      | none => copyResults E T src reopen p temps names
      | some q =>
        match sampleRows E T src reopen temps k q with
        | .error e => .error e
        | .ok rows =>
          match copyResults E T src reopen p temps names with
          | .error e => .error e
          | .ok rest => .ok ((k, rows) :: rest)

/-- Execution of a plan: the sampled rows per table, in insert order (`sampler.py:746-751`). -/
def execPlan (E : Engine) (T : Tables) (compact : Dict Key (List Str)) (src : Key → List Row)
    (reopen : Bool) (p : Plan) (insertOrder : List Str) : Except ExecErr (List (Key × List Row)) :=
  match materializationOrder T compact p with
  | .error e => .error e
  | .ok order =>
    match materialize E T src reopen p order [] with
    | .error e => .error e
    | .ok temps => copyResults E T src reopen p temps insertOrder

end Subsetter
