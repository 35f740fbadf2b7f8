import Verif.Model.Run

/-
Model of runs into PostgreSQL with the sequences behind autoincrement columns (`/repo/subsetter/sampler.py:235-295,
657-709`).
-/
namespace Subsetter

/-- What `_autoincrement_update` (`sampler.py:269-295,709`) does to the sequences `Q` after all rows of the job `j` have been
written; `auto` is `autoinc_max_written` and `cur k` the value of `currval` for table `k` in the session
`_autoincrement_get` uses (`sampler.py:244-266`), `none` if it is not defined there. -/
def updateSequence (cur : Key → Option Int) (j : TableJob) (auto : Val) (Q : Key → Sequence) : Key → Sequence :=
  match j.input.autoincrement with
  | none => Q
  | some _ => fun k => if k = j.key then autoincrementUpdate (cur k) (autoValue auto) (Q k) else Q k

/-- `copyAll` (`sampler.py:937-1069`) with the sequences of the destination.  Sequences used up by the destination itself, for
rows sent without the autoincrement column, are not modelled. -/
def copyAllSeq {σ : Type} (cur : Key → Option Int) (W : Outside σ Val) (dialect : Dialect)
    (read : Str → Except RunErr (Option TableJob)) : List Str → List DbState → σ → (Key → Sequence) →
    (List DbState × List (Key × List (List (List Val))) × Option RunErr) × (Key → Sequence)
  | [], hist, _, Q => ((hist, [], none), Q)
  | n :: ns, hist, s, Q =>
    match read n with
    | .error e => ((hist, [], some e), Q)
    | .ok none => copyAllSeq cur W dialect read ns hist s Q
    | .ok (some j) =>
      match outPlan j.input with
      | .error e => ((hist, [], some (.dest (.output e))), Q)
      | .ok o =>
        match writeAll W (flushTo dialect j.strategy j.key j.input.dest o.colsOut) o j.rows hist s with
        | .error (st, e) => ((st.dest, [(j.key, st.written)], some (.dest (.output e))), Q)
        | .ok st =>
          let ((hist', writes, err), Q') :=
            copyAllSeq cur W dialect read ns st.dest st.world (updateSequence cur j st.auto Q)
          ((hist', (j.key, st.written) :: writes, err), Q')

/-- `Sampler.sample` (`sampler.py:721-751`) with the sequences of the destination before (`Q`) and after; see `sample`. -/
def sampleSeq {σ : Type} (C : RunConfig) (D : Setting σ) (p : Plan) (S : DbState) (s : σ) (cur : Key → Option Int)
    (Q : Key → Sequence) : RunResult × (Key → Sequence) :=
  match startRun C D p with
  | .error e => (⟨D.dstDb, [S], [], some e⟩, Q)
  | .ok r =>
    match createStep C D r with
    | .error e => (⟨D.dstDb, [S], [], some (.dest e)⟩, Q)
    | .ok (db, x) =>
      match insertOrder x with
      | .error e => (⟨db, [S], [], some (.dest e)⟩, Q)
      | .ok order =>
        match truncateStep C x S with
        | .error e => (⟨db, [S], [], some (.dest e)⟩, Q)
        | .ok states =>
          let hist := states.reverse ++ [S]
          match prepareStep C r.tables x (hist.head?.getD S) p with
          | .error e => (⟨db, hist, [], some (.dest e)⟩, Q)
          | .ok offs =>
            match getCompactColumns r.tables p.passthrough C.compact with
            | .error e => (⟨db, hist, [], some (.compact e)⟩, Q)
            | .ok compact =>
              match materializationOrder r.tables compact p with
              | .error e => (⟨db, hist, [], some (.exec e)⟩, Q)
              | .ok mat =>
                match materialize D.engine r.tables D.src D.reopen p mat [] with
                | .error e => (⟨db, hist, [], some (.exec e)⟩, Q)
                | .ok temps =>
                  let ((hist', writes, err), Q') :=
                    copyAllSeq cur D.world D.dialect (readTable C D r x offs compact p temps) order hist s Q
                  (⟨db, hist', writes, err⟩, Q')

end Subsetter
