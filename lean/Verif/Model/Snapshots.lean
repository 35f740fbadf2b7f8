import Verif.Model.Exec

/-
Execution of a plan while the source changes (`/repo/subsetter/sampler.py:746-751, 853-960`).

Every statement that reads the source sees the state committed when it starts, as under READ COMMITTED, the default
of `database_engine` (`common.py:187-192`); `snap i` is what the `i`-th statement sees. Temporary tables belong to
the connection and do not change.
-/
namespace Subsetter

/-- `_materialize_tables`, with the number of the next statement.  `sampler.py:853-935`. -/
def materializeAt (E : Engine) (T : Tables) (snap : Nat → Key → List Row) (reopen : Bool) (p : Plan) :
    Nat → List (Key × Nat) → Temps → Except ExecErr (Temps × Nat)
  | now, [], temps => .ok (temps, now)
  | now, (k, n) :: order, temps =>
    match dget T k with
    | none => .error .keyError
    | some _ =>
      match dget p.queries k.str with
      | none => .error .keyError
      | some q =>
        match runQuery E T (snap now) reopen temps q with
        | .error e => .error e
        | .ok rows =>
          let temps' := dset temps (k, 0) rows
          let temps'' := if reopen then temps' else addCopies temps' k rows (List.range' 1 (n - 1))
          materializeAt E T snap reopen p (now + 1) order temps''

/-- The query part of `_copy_results`.  `sampler.py:937-1069`. -/
def copyResultsAt (E : Engine) (T : Tables) (snap : Nat → Key → List Row) (reopen : Bool) (p : Plan)
    (temps : Temps) : Nat → List Str → Except ExecErr (List (Key × List Row))
  | _, [] => .ok []
  | now, name :: names =>
    match parseTableName name with
    | none => .error .badName
    | some k =>
      match dget p.queries name with
      | none => copyResultsAt E T snap reopen p temps (now + 1) names
      | some q =>
        match sampleRows E T (snap now) reopen temps k q with
        | .error e => .error e
        | .ok rows =>
          match copyResultsAt E T snap reopen p temps (now + 1) names with
          | .error e => .error e
          | .ok rest => .ok ((k, rows) :: rest)

/-- Execution of a plan.  `sampler.py:721-751`. -/
def execPlanAt (E : Engine) (T : Tables) (compact : Dict Key (List Str)) (snap : Nat → Key → List Row)
    (reopen : Bool) (p : Plan) (insertOrder : List Str) : Except ExecErr (List (Key × List Row)) :=
  match materializationOrder T compact p with
  | .error e => .error e
  | .ok order =>
    match materializeAt E T snap reopen p 0 order [] with
    | .error e => .error e
    | .ok (temps, now) => copyResultsAt E T snap reopen p temps now insertOrder

end Subsetter
