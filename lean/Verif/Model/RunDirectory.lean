import Verif.Model.Run

/-
Model of `Sampler.sample` (`/repo/subsetter/sampler.py:721-751`) with a directory as output.
-/
namespace Subsetter

/-- Files of the output directory by name; the objects of a file, one per line.  That `json.dump` can write every value
(`default=str`) is taken for granted.  `sampler.py:344-386`. -/
abbrev Files := Str → Option (List Row)

/-- `f"{schema}.{table_name}.json"` (`sampler.py:369`). -/
def fileName (k : Key) : Str := k.str ++ str! ".json"

/-- The files with one replaced: `open(output_path, "w")` (`sampler.py:377`). -/
def Files.set (F : Files) (n : Str) (lines : List Row) : Files := fun n' => if n' = n then some lines else F n'

/-- Body of the loop of `_copy_results` up to the call of `output_result_set` (`sampler.py:947-1068`): the table,
its filters and its rows; `none` if there is no query for the table. -/
def readRows {σ : Type} (C : RunConfig) (D : Setting σ) (T : Tables) (compact : Dict Key (List Str)) (p : Plan)
    (temps : Temps) (n : Str) : Except RunErr (Option (Key × Chain Val × List (List Val))) :=
  match parseTableName n with
  | none => .error (.exec .badName)
  | some k =>
    match dget p.queries n with
    | none => .ok none
    | some q =>
      match copyRows D.engine T D.le C.compact.startKey compact D.src D.reopen temps k q with
      | .error e => .error (.exec e)
      | .ok rows =>
        match dget T k with
        | none => .error (.exec .keyError)
        | some t =>
          match constructFilter D.world t.columns ((dget C.filters n).getD []) with
          | .error e => .error (.filter e)
          | .ok ch => .ok (some (k, ch, rows.map fun r => t.columns.map r.get))

/-- `_copy_results` (`sampler.py:937-1069`) with `DirectoryOutput.output_result_set`: the files after all tables or
after the error. -/
def copyFiles {σ : Type} (C : RunConfig) (D : Setting σ) (mult : Dict Str (List Str))
    (read : Str → Except RunErr (Option (Key × Chain Val × List (List Val)))) :
    List Str → Files → σ → Files × Option RunErr
  | [], F, _ => (F, none)
  | n :: ns, F, s =>
    match read n with
    | .error e => (F, some e)
    | .ok none => copyFiles C D mult read ns F s
    | .ok (some (k, ch, rows)) =>
      match directoryOutput D.world ch (if (dget mult n).isNone then 1 else C.mult.multiplier.toNat)
          ((dget mult n).getD []) rows s with
      | (lines, _, some e) => (F.set (fileName k) lines, some (.dest (.output e)))
      | (lines, s', none) => copyFiles C D mult read ns (F.set (fileName k) lines) s'

/-- `Sampler.sample` (`sampler.py:721-751`) with a directory that holds the files `F` and can be written.  `create`,
`truncate` and `prepare` do nothing (`sampler.py:320-327`), the order is that of the plan (`sampler.py:355-356`); of
`C` the fields `remap`, `strategy`, `merge`, `truncate` and `create` are not used, of `D` those about the destination
database. -/
def sampleDirectory {σ : Type} (C : RunConfig) (D : Setting σ) (p : Plan) (F : Files) (s : σ) : Files × Option RunErr :=
  match fromEngine D.fnmatch D.srcDb (dkeys p.queries) false false with
  | none => (F, some .load)
  | some none => (F, some .load)
  | some (some l) =>
    let T := inferStep C.infer l.tables
    match validateFilters D.world T C.filters with
    | .error e => (F, some e)
    | .ok () =>
      match multipliedColumns T C.mult p.passthrough (dkeys p.queries) with
      | .error e => (F, some (.mult e))
      | .ok mult =>
        match getCompactColumns T p.passthrough C.compact with
        | .error e => (F, some (.compact e))
        | .ok compact =>
          match materializationOrder T compact p with
          | .error e => (F, some (.exec e))
          | .ok mat =>
            match materialize D.engine T D.src D.reopen p mat [] with
            | .error e => (F, some (.exec e))
            | .ok temps => copyFiles C D mult (readRows C D T compact p temps) (dkeys p.queries) F s

end Subsetter
