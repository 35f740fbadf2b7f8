import Verif.Model.Enforce

/-
What the statements built by `ConflictInsert` (`/repo/subsetter/sampler.py:159-232`) do to a table that has unique
constraints beside its primary key.  The model of `Output.lean` knows the primary key only.

The meaning of the statements is that of the databases:
* PostgreSQL and SQLite: `ON CONFLICT DO NOTHING` without columns skips a row that violates any unique constraint;
  `ON CONFLICT (primary key) DO UPDATE` updates if the primary key is taken, and any other violation is an error.
* MySQL: `INSERT IGNORE` skips a row that violates any of them; `ON DUPLICATE KEY UPDATE` updates the row found by the first
  of them that is violated, the primary key coming first.
That `IGNORE` hides other errors too is left out.
-/
namespace Subsetter

/-- A unique constraint on `u` does not let `new` stand beside `r`: they agree, and none of the values is NULL.
`sampler.py:185-226`. -/
def clash (u : List Str) (new r : Row) : Bool := filledIn u new && decide (u.map r.get = u.map new.get)

/-- The primary key is taken by `r`.  `sampler.py:185-226`. -/
def samePk (d : DestTable) (new r : Row) : Bool := decide (d.pk ≠ [] ∧ pkOf d r = pkOf d new)

/-- An update is accepted if the result respects the unique constraints.
`sampler.py:196-226`. -/
def accepted (uniques : List (List Str)) (T : List Row) : Except OutErr (List Row) :=
  if uniques.all fun u => checkUnique u T then .ok T else .error .integrity

/-- Insertion of one row (`sampler.py:185-226`) into a table with the unique constraints `uniques`. -/
def insertUnique (dialect : Dialect) (strategy : Strategy) (d : DestTable) (uniques : List (List Str)) (upd : List Str)
    (new : Row) (T : List Row) : Except OutErr (List Row) :=
  let onPk := T.any (samePk d new)
  let other := uniques.find? fun u => T.any (clash u new)
  match strategy with
  | .error => if onPk || other.isSome then .error .integrity else .ok (T ++ [new])
  | .skip => if onPk || other.isSome then .ok T else .ok (T ++ [new])
  | .replace =>
    if onPk then accepted uniques (T.map fun r => if samePk d new r then updateRow upd new r else r)
    else
      match other with
      | none => .ok (T ++ [new])
      | some u =>
        match dialect with
        | .mysql => accepted uniques (T.map fun r => if clash u new r then updateRow upd new r else r)
        | _ => .error .integrity

/-- Insertion of several rows in order, all or nothing.  `sampler.py:676-683`. -/
def insertUniques (dialect : Dialect) (strategy : Strategy) (d : DestTable) (uniques : List (List Str)) (upd : List Str) :
    List Row → List Row → Except OutErr (List Row)
  | [], T => .ok T
  | r :: rs, T =>
    match insertUnique dialect strategy d uniques upd (fullRow d r) T with
    | .error e => .error e
    | .ok T' => insertUniques dialect strategy d uniques upd rs T'

/-- `_flush_buffer` (`sampler.py:676-683`), see `flushBuffer`. -/
def flushUnique (dialect : Dialect) (strategy : Strategy) (d : DestTable) (uniques : List (List Str)) (cols : List Str)
    (buffer : List (List Val)) (T : List Row) : Except OutErr (List Row) :=
  match conflictInit strategy d.pk cols with
  | .error e => .error e
  | .ok (st, nonPk) =>
    if dialect = .generic ∧ st ≠ .error then .error .unsupported
    else if st = .replace ∧ ((updateColumns dialect d nonPk).any fun c => decide (c ∈ d.computed)) then
      .error .generatedColumn
    else insertUniques dialect st d uniques (updateColumns dialect d nonPk) (buffer.map fun row => cols.zip row) T

/-- The unique constraints of the table `k`.  `sampler.py:541-566`. -/
def uniquesOf (db : Dict Str TableMeta) (k : Key) : List (List Str) :=
  db.flatMap fun e => if (e.2.schema, e.2.name) = k then e.2.uniques else []

/-- `flushTo` with `flushUnique`.  `sampler.py:676-683`. -/
def flushUniqueTo (db : Dict Str TableMeta) (dialect : Dialect) (strategy : Strategy) (k : Key) (d : DestTable)
    (cols : List Str) (buffer : List (List Val)) : List DbState → Except OutErr (List DbState)
  | [] => .ok []
  | S :: hist =>
    match flushUnique dialect strategy d (uniquesOf db k) cols buffer (S k) with
    | .error e => .error e
    | .ok rows => .ok (S.set k rows :: S :: hist)

/-- `copyAll` (`sampler.py:937-1069`) with `flushUniqueTo`. -/
def copyAllUnique {σ : Type} (db : Dict Str TableMeta) (W : Outside σ Val) (dialect : Dialect)
    (read : Str → Except RunErr (Option TableJob)) :
    List Str → List DbState → σ → List DbState × List (Key × List (List (List Val))) × Option RunErr
  | [], hist, _ => (hist, [], none)
  | n :: ns, hist, s =>
    match read n with
    | .error e => (hist, [], some e)
    | .ok none => copyAllUnique db W dialect read ns hist s
    | .ok (some j) =>
      match outPlan j.input with
      | .error e => (hist, [], some (.dest (.output e)))
      | .ok o =>
        match writeAll W (flushUniqueTo db dialect j.strategy j.key j.input.dest o.colsOut) o j.rows hist s with
        | .error (st, e) => (st.dest, [(j.key, st.written)], some (.dest (.output e)))
        | .ok st =>
          let (hist', writes, err) := copyAllUnique db W dialect read ns st.dest st.world
          (hist', (j.key, st.written) :: writes, err)

/-- `Sampler.sample` (`sampler.py:721-751`) into a database with unique constraints; see `sample`. -/
def sampleUnique {σ : Type} (C : RunConfig) (D : Setting σ) (p : Plan) (S : DbState) (s : σ) : RunResult :=
  match startRun C D p with
  | .error e => ⟨D.dstDb, [S], [], some e⟩
  | .ok r =>
    match createStep C D r with
    | .error e => ⟨D.dstDb, [S], [], some (.dest e)⟩
    | .ok (db, x) =>
      match insertOrder x with
      | .error e => ⟨db, [S], [], some (.dest e)⟩
      | .ok order =>
        match truncateStep C x S with
        | .error e => ⟨db, [S], [], some (.dest e)⟩
        | .ok states =>
          let hist := states.reverse ++ [S]
          match prepareStep C r.tables x (hist.head?.getD S) p with
          | .error e => ⟨db, hist, [], some (.dest e)⟩
          | .ok offs =>
            match getCompactColumns r.tables p.passthrough C.compact with
            | .error e => ⟨db, hist, [], some (.compact e)⟩
            | .ok compact =>
              match materializationOrder r.tables compact p with
              | .error e => ⟨db, hist, [], some (.exec e)⟩
              | .ok mat =>
                match materialize D.engine r.tables D.src D.reopen p mat [] with
                | .error e => ⟨db, hist, [], some (.exec e)⟩
                | .ok temps =>
                  let (hist', writes, err) :=
                    copyAllUnique db D.world D.dialect (readTable C D r x offs compact p temps) order hist s
                  ⟨db, hist', writes, err⟩

end Subsetter
