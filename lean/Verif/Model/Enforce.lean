import Verif.Model.Run

/-
Runs into a destination that checks constraints of its own: foreign keys, unique constraints, NOT NULL, anything that can
be seen from the contents.  The model of `Run.lean` knows primary keys only.
-/
namespace Subsetter

/-- `_flush_buffer` (`sampler.py:676-683`) on such a destination: `conn.execute` with a list of rows executes the statement
for one row after the other, and `ok` is checked after each; a violation is an `IntegrityError`, and the transaction is
rolled back.  (Whether strategies other than `error` skip or update rows that violate a unique constraint differs between
databases; here they fail.) -/
def insertRows (ok : DbState → Bool) (dialect : Dialect) (strategy : Strategy) (k : Key) (d : DestTable)
    (cols : List Str) : List (List Val) → DbState → Except OutErr DbState
  | [], S => .ok S
  | b :: bs, S =>
    match flushBuffer dialect strategy d cols [b] (S k) with
    | .error e => .error e
    | .ok rows =>
      if ok (S.set k rows) then insertRows ok dialect strategy k d cols bs (S.set k rows) else .error .integrity

/-- The values of the columns, unless one is NULL.  `sampler.py:676-683`. -/
def filledIn (cols : List Str) (r : Row) : Bool := cols.all fun c => decide (r.get c ≠ .null)

/-- Each of the rows differs from those after it in the columns `u`, rows with NULL aside.
`sampler.py:676-683`. -/
def checkUnique (u : List Str) : List Row → Bool
  | [] => true
  | r :: rows => (!filledIn u r || rows.all fun r' => decide (u.map r.get ≠ u.map r'.get)) && checkUnique u rows

/-- What a database with these tables checks: foreign keys (`MATCH SIMPLE`, the default: a reference with a NULL is not
checked) and unique constraints (rows with a NULL do not conflict), as `create` adds them to the
tables it creates (`sampler.py:533-550`). -/
def checkDb (schema : Dict Str TableMeta) (X : DbState) : Bool :=
  schema.all fun e =>
    (e.2.foreignKeys.all fun fk => (X (e.2.schema, e.2.name)).all fun r =>
      !filledIn fk.columns r || (X (fk.dstSchema, fk.dstTable)).any fun q =>
        (fk.columns.zip fk.dstColumns).all fun c => decide (r.get c.1 = q.get c.2)) &&
    e.2.uniques.all fun u => checkUnique u (X (e.2.schema, e.2.name))

/-- `flushTo` with `insertRows`.  `sampler.py:676-683`. -/
def flushChecked (ok : DbState → Bool) (dialect : Dialect) (strategy : Strategy) (k : Key) (d : DestTable)
    (cols : List Str) (buffer : List (List Val)) : List DbState → Except OutErr (List DbState)
  | [] => .ok []
  | S :: hist =>
    match insertRows ok dialect strategy k d cols buffer S with
    | .error e => .error e
    | .ok S' => .ok (S' :: S :: hist)

/-- `copyAll` (`sampler.py:937-1069`) with `flushChecked`. -/
def copyAllChecked {σ : Type} (ok : DbState → Bool) (W : Outside σ Val) (dialect : Dialect)
    (read : Str → Except RunErr (Option TableJob)) :
    List Str → List DbState → σ → List DbState × List (Key × List (List (List Val))) × Option RunErr
  | [], hist, _ => (hist, [], none)
  | n :: ns, hist, s =>
    match read n with
    | .error e => (hist, [], some e)
    | .ok none => copyAllChecked ok W dialect read ns hist s
    | .ok (some j) =>
      match outPlan j.input with
      | .error e => (hist, [], some (.dest (.output e)))
      | .ok o =>
        match writeAll W (flushChecked ok dialect j.strategy j.key j.input.dest o.colsOut) o j.rows hist s with
        | .error (st, e) => (st.dest, [(j.key, st.written)], some (.dest (.output e)))
        | .ok st =>
          let (hist', writes, err) := copyAllChecked ok W dialect read ns st.dest st.world
          (hist', (j.key, st.written) :: writes, err)

/-- `truncate` (`sampler.py:574-586`) on such a destination: the states committed and whether all deletions were
accepted. -/
def truncateChecked (ok : DbState → Bool) : List DbState → List DbState × Bool
  | [] => ([], true)
  | X :: Xs =>
    if ok X then
      let (done, fine) := truncateChecked ok Xs
      (X :: done, fine)
    else ([], false)

/-- `Sampler.sample` (`sampler.py:721-751`) into a destination that accepts only contents for which `ok` holds; see
`sample`. -/
def sampleChecked {σ : Type} (ok : DbState → Bool) (C : RunConfig) (D : Setting σ) (p : Plan) (S : DbState) (s : σ) :
    RunResult :=
  match startRun C D p with
  | .error e => ⟨D.dstDb, [S], [], some e⟩
  | .ok r =>
    match createStep C D r with
    | .error e => ⟨D.dstDb, [S], [], some (.dest e)⟩
    | .ok (db, x) =>
      match insertOrder x with
      | .error e => ⟨db, [S], [], some (.dest e)⟩
      | .ok order =>
        match truncateStep C x S with
        | .error e => ⟨db, [S], [], some (.dest e)⟩
        | .ok states =>
          let (done, fine) := truncateChecked ok states
          let hist := done.reverse ++ [S]
          if fine then
            match prepareStep C r.tables x (hist.head?.getD S) p with
            | .error e => ⟨db, hist, [], some (.dest e)⟩
            | .ok offs =>
              match getCompactColumns r.tables p.passthrough C.compact with
              | .error e => ⟨db, hist, [], some (.compact e)⟩
              | .ok compact =>
                match materializationOrder r.tables compact p with
                | .error e => ⟨db, hist, [], some (.exec e)⟩
                | .ok mat =>
                  match materialize D.engine r.tables D.src D.reopen p mat [] with
                  | .error e => ⟨db, hist, [], some (.exec e)⟩
                  | .ok temps =>
                    let (hist', writes, err) :=
                      copyAllChecked ok D.world D.dialect (readTable C D r x offs compact p temps) order hist s
                    ⟨db, hist', writes, err⟩
          else ⟨db, hist, [], some (.dest (.output .integrity))⟩

end Subsetter
