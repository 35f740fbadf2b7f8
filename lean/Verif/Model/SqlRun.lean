import Verif.Model.Build
import Verif.Model.Run

/-
`Sampler.sample` with the statements it builds (`Model/Build.lean`) instead of what they are meant to return
(`Model/Exec.lean`, `Model/Compact.lean`): the temporary tables with their extra column, the statements that fill them
and those that copy the result.
-/
namespace Subsetter

/-- `SUBSETTER_COMPACT_COLUMN` (`sampler.py:40`). -/
def compactCol : Str := str! "_sbsttr_id"

/-- Temporary tables: the table objects of `meta.temp_tables` and their rows.
`metadata.py:69`. -/
abbrev SqlTemps := Dict (Key × Nat) (TableObj × List Row)

/-- `meta.tables[key].table_obj`.  `metadata.py:223`. -/
def sourceObj (T : Tables) (k : Key) : Option TableObj :=
  (dget T k).map fun t => ⟨.src k, t.columns, t.primaryKey⟩

/-- `meta.sql_build_context()` (`metadata.py:210-225`). -/
def sqlCtx (T : Tables) (temps : SqlTemps) (reopen : Bool) : BuildCtx :=
  ⟨sourceObj T, fun k i => (dget temps (k, i)).map Prod.fst, reopen⟩

/-- What the tables hold.  `metadata.py:213-223`. -/
def sqlRows (src : Key → List Row) (temps : SqlTemps) : SqlObj → List Row
  | .src k => src k
  | .temp k i => ((dget temps (k, i)).map Prod.snd).getD []

/-- The context of `_record_sampled_tables` (`sampler.py:820-826`): the source table, also for sampled tables. -/
def recordCtx (T : Tables) : BuildCtx := ⟨sourceObj T, fun k _ => sourceObj T k, true⟩

/-- `dep_graph` and `max_ref_counts` (`sampler.py:828-844`).  What the context counts is `sampledRefs`. -/
def depLoopSql (T : Tables) (compact : Dict Key (List Str)) :
    List (Str × TableQuery) → Graph Key → Dict Key Nat → Except ExecErr (Graph Key × Dict Key Nat)
  | [], g, m => .ok (g, m)
  | (name, q) :: qs, g, m =>
    match q.build (recordCtx T) with
    | .error _ => .error .keyError
    | .ok _ =>
      match parseTableName name with
      | none => .error .badName
      | some k =>
        match dget T k with
        | none => .error .keyError
        | some t =>
          let c := (sampledRefs q).foldl countKey []
          let c' := (compactRefs compact t).foldl countKey c
          depLoopSql T compact qs (dset g k (dkeys c)) (c'.foldl maxCount m)

/-- `_materialization_order` (`sampler.py:811-851`). -/
def materializationOrderSql (T : Tables) (compact : Dict Key (List Str)) (p : Plan) :
    Except ExecErr (List (Key × Nat)) :=
  match depLoopSql T compact p.queries [] [] with
  | .error e => .error e
  | .ok (g, m) =>
    match toposort g with
    | .error .cycleDetected => .error .cycle
    | .error .fuel => .error .fuel
    | .error _ => .error .keyError
    | .ok order => .ok (order.filterMap fun k => (dget m k).map fun n => (k, n))

/-- The label of a selected expression.  `sampler.py:876-890`. -/
def Item.label : Item → Str
  | .col _ l => l
  | .number _ _ l => l

/-- `selected_columns`: those of the first statement of a union.  Raw SQL (`sa.text`) has no such attribute, nor the
attribute `subquery`; an empty union is counted in.  `sampler.py:877-890,981-990`. -/
def Query.columns : Query → Option (List Str)
  | .select items _ _ _ _ => some (items.map Item.label)
  | .union (.select items _ _ _ _ :: _) => some (items.map Item.label)
  | _ => none

/-- `row_number() OVER (ORDER BY pk) + start_key - 1` over the subquery named `n` (`sampler.py:880-887, 983-989`). -/
def idItem (start : Int) (pk : List Str) (n : Nat) (label : Str) : Item :=
  .number (pk.map fun c => ⟨.alias n, c⟩) (start - 1) label

/-- The statement with the new identifiers as first column (`sampler.py:876-890`). -/
def numberedQuery (start : Int) (pk : List Str) (q : Query) (n : Nat) : Except ExecErr Query :=
  match q.columns with
  | none => .error .attributeError
  | some cols =>
    if pk.all fun c => decide (c ∈ cols) then
      .ok (.select (idItem start pk n compactCol :: cols.map fun c => .col ⟨.alias n, c⟩ c) (.sub q n) [] none none)
    else .error .keyError

/-- The temporary table `TempTableCreator.create` makes for a statement (`sampler.py:107-117`); indexes and errors of
the database are not modelled. -/
def tempObj (k : Key) (i : Nat) (pk : List Str) (q : Query) : Except ExecErr TableObj :=
  match q.columns with
  | none => .error .attributeError
  | some cols => .ok ⟨.temp k i, cols, cols.filter fun c => decide (c ∈ pk)⟩

/-- `table.select()`.  `sampler.py:955-959`. -/
def TableObj.select (o : TableObj) : Query :=
  .select (o.columns.map fun c => .col ⟨.obj o.obj, c⟩ c) (.table o.obj) [] none none

/-- The copies made for MySQL (`sampler.py:915-930`), each by selecting from copy 0. -/
def addCopiesSql (E : Engine) (le : List Val → List Val → Bool) (src : Key → List Row) (k : Key) (pk : List Str)
    (o : TableObj) : List Nat → SqlTemps → Except ExecErr SqlTemps
  | [], temps => .ok temps
  | i :: is, temps =>
    match tempObj k i pk o.select with
    | .error e => .error e
    | .ok o' =>
      addCopiesSql E le src k pk o is (dset temps (k, i) (o', Query.eval E le (sqlRows src temps) [] o.select))

/-- The statement that fills the temporary table of `k` (`sampler.py:873-890`). -/
def tempQuery (T : Tables) (start : Int) (compact : Dict Key (List Str)) (reopen : Bool) (temps : SqlTemps) (k : Key)
    (t : TableMeta) (q : TableQuery) : Except ExecErr Query :=
  match q.build (sqlCtx T temps reopen) with
  | .error _ => .error .keyError
  | .ok (Q, s) => if (dget compact k).isSome then numberedQuery start t.primaryKey Q s.fresh else .ok Q

/-- `_materialize_tables` (`sampler.py:853-935`). -/
def materializeSql (E : Engine) (T : Tables) (le : List Val → List Val → Bool) (start : Int)
    (compact : Dict Key (List Str)) (src : Key → List Row) (reopen : Bool) (p : Plan) :
    List (Key × Nat) → SqlTemps → Except ExecErr SqlTemps
  | [], temps => .ok temps
  | (k, n) :: order, temps =>
    match dget T k with
    | none => .error .keyError
    | some t =>
      match dget p.queries k.str with
      | none => .error .keyError
      | some q =>
        match tempQuery T start compact reopen temps k t q with
        | .error e => .error e
        | .ok Q =>
          match tempObj k 0 t.primaryKey Q with
          | .error e => .error e
          | .ok o =>
            let temps' := dset temps (k, 0) (o, Query.eval E le (sqlRows src temps) [] Q)
            if reopen then materializeSql E T le start compact src reopen p order temps'
            else
              match addCopiesSql E le src k t.primaryKey o (List.range' 1 (n - 1)) temps' with
              | .error e => .error e
              | .ok temps'' => materializeSql E T le start compact src reopen p order temps''

/-- The loop over the columns of a copied table (`sampler.py:999-1027`): the selected expressions and the FROM clause.
`n` names the subquery, which has the columns `cols`; `used` is `joined_tables`. -/
def buildLookups (X : BuildCtx) (n : Nat) (cols localCols : List Str) (id : Str → Item) (remote : Dict Str (Key × Str)) :
    List Str → From → List SqlObj → BuildState → Except ExecErr (List Item × From)
  | [], f, _, _ => .ok ([], f)
  | c :: cs, f, used, s =>
    if c ∈ localCols then
      match buildLookups X n cols localCols id remote cs f used s with
      | .error e => .error e
      | .ok (items, f') => .ok (id c :: items, f')
    else
      match dget remote c with
      | some (k, d) =>
        match X.call ⟨k.1, k.2, true⟩ s with
        | .error _ => .error .keyError
        | .ok (o, s1) =>
          let name := if o.obj ∈ used then Name.alias s1.fresh else .obj o.obj
          if compactCol ∈ o.columns ∧ c ∈ cols ∧ d ∈ o.columns then
            match buildLookups X n cols localCols id remote cs
                (.join f o.obj name [(⟨.alias n, c⟩, ⟨name, d⟩)] true) (o.obj :: used) ⟨s1.counts, s1.fresh + 1⟩ with
            | .error e => .error e
            | .ok (items, f') => .ok (.col ⟨name, compactCol⟩ c :: items, f')
          else .error .keyError
      | none =>
        if c ∈ cols then
          match buildLookups X n cols localCols id remote cs f used s with
          | .error e => .error e
          | .ok (items, f') => .ok (.col ⟨.alias n, c⟩ c :: items, f')
        else .error .keyError

/-- `query_stmt` before compaction (`sampler.py:955-959`). -/
def copyQuery (T : Tables) (reopen : Bool) (temps : SqlTemps) (k : Key) (q : TableQuery) :
    Except ExecErr (Query × BuildState) :=
  match dget temps (k, 0) with
  | some (o, _) => .ok (o.select, ⟨[], 0⟩)
  | none =>
    match q.build (sqlCtx T temps reopen) with
    | .error _ => .error .keyError
    | .ok x => .ok x

/-- The rows copied for a table (`sampler.py:955-1038`). -/
def copyRowsSql (E : Engine) (T : Tables) (le : List Val → List Val → Bool) (start : Int)
    (compact : Dict Key (List Str)) (src : Key → List Row) (reopen : Bool) (temps : SqlTemps) (k : Key)
    (q : TableQuery) : Except ExecErr (List Row) :=
  match copyQuery T reopen temps k q with
  | .error e => .error e
  | .ok (Q, s) =>
    match dget T k with
    | none => .error .keyError
    | some t =>
      let remote := remoteCols compact t.foreignKeys
      let localCols := (dget compact k).getD []
      if remote = [] ∧ localCols = [] then .ok (Query.eval E le (sqlRows src temps) [] Q)
      else
        match Q.columns with
        | none => .error .attributeError
        | some cols =>
          if t.primaryKey.all fun c => decide (c ∈ cols) then
            let id := fun c =>
              if compactCol ∈ cols then .col ⟨.alias s.fresh, compactCol⟩ c else idItem start t.primaryKey s.fresh c
            match buildLookups (sqlCtx T temps reopen) s.fresh cols localCols id remote t.columns (.sub Q s.fresh) []
                ⟨s.counts, s.fresh + 1⟩ with
            | .error e => .error e
            | .ok (items, f) => .ok (Query.eval E le (sqlRows src temps) [] (.select items f [] none none))
          else .error .keyError

/-- `readTable` with the statement built.  `sampler.py:937-1069`. -/
def readTableSql {σ : Type} (C : RunConfig) (D : Setting σ) (r : Started) (x : DestMeta)
    (offs : Dict Key (Dict Str Int)) (compact : Dict Key (List Str)) (p : Plan) (temps : SqlTemps) (n : Str) :
    Except RunErr (Option TableJob) :=
  match parseTableName n with
  | none => .error (.exec .badName)
  | some k =>
    match dget p.queries n with
    | none => .ok none
    | some q =>
      match copyRowsSql D.engine r.tables D.le C.compact.startKey compact D.src D.reopen temps k q with
      | .error e => .error (.exec e)
      | .ok rows =>
        match dget r.tables k with
        | none => .error (.exec .keyError)
        | some t =>
          match tableJob C D r.mult x offs p.passthrough n k t rows with
          | .error e => .error e
          | .ok j => .ok (some j)

/-- `Sampler.sample` (`sampler.py:721-751`), like `sample` but with the statements built. -/
def sampleSql {σ : Type} (C : RunConfig) (D : Setting σ) (p : Plan) (S : DbState) (s : σ) : RunResult :=
  match startRun C D p with
  | .error e => ⟨D.dstDb, [S], [], some e⟩
  | .ok r =>
    match createStep C D r with
    | .error e => ⟨D.dstDb, [S], [], some (.dest e)⟩
    | .ok (db, x) =>
      match insertOrder x with
      | .error e => ⟨db, [S], [], some (.dest e)⟩
      | .ok order =>
        match truncateStep C x S with
        | .error e => ⟨db, [S], [], some (.dest e)⟩
        | .ok states =>
          let hist := states.reverse ++ [S]
          match prepareStep C r.tables x (hist.head?.getD S) p with
          | .error e => ⟨db, hist, [], some (.dest e)⟩
          | .ok offs =>
            match getCompactColumns r.tables p.passthrough C.compact with
            | .error e => ⟨db, hist, [], some (.compact e)⟩
            | .ok compact =>
              match materializationOrderSql r.tables compact p with
              | .error e => ⟨db, hist, [], some (.exec e)⟩
              | .ok mat =>
                match materializeSql D.engine r.tables D.le C.compact.startKey compact D.src D.reopen p mat [] with
                | .error e => ⟨db, hist, [], some (.exec e)⟩
                | .ok temps =>
                  let (hist', writes, err) :=
                    copyAll D.world D.dialect (readTableSql C D r x offs compact p temps) order hist s
                  ⟨db, hist', writes, err⟩

end Subsetter
