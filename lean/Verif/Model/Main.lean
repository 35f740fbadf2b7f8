import Verif.Model.Run
import Verif.Model.PlanFile

/-
Model of the commands `plan`, `sample` and `subset` (`/repo/subsetter/__main__.py:148-215`) for a configuration
that was read without error (`Verif.Model.Config`) and a database as output.
-/
namespace Subsetter

/-- Reasons to stop other than an exception of `sample`.
`__main__.py:150-152,204-208`, `sampler.py:713-751`. -/
inductive MainErr where
  /-- the configuration has no section `planner` -/
  | noPlanner
  /-- the configuration has no section `sampler`: `AttributeError` -/
  | noSampler
  | plan (e : PlanErr)
  | planFile (e : LoadErr)
  deriving DecidableEq, Repr

/-- `_main_plan` (`__main__.py:148-152`): the plan to be written; what is written is described by
`Spec.DumpsPlan`. -/
def mainPlan (fnmatch : Str → Str → Bool) (db : Dict Str TableMeta) (planner : Option PlannerConfig) :
    Except MainErr Plan :=
  match planner with
  | none => .error .noPlanner
  | some cfg =>
    match plan fnmatch db cfg with
    | .error e => .error (.plan e)
    | .ok p => .ok p

/-- `Sampler(config.source, config.sampler).sample(…)` (`__main__.py:195-199,211-215`).  Without a section `sampler`
the attribute `infer_foreign_keys` of `None` is read once the source has been loaded (`sampler.py:730`); that loading
may fail before is left out. -/
def runSampler {σ : Type} (C : Option RunConfig) (D : Setting σ) (p : Plan) (S : DbState) (s : σ) :
    Except MainErr RunResult :=
  match C with
  | none => .error .noSampler
  | some C => .ok (sample C D p S s)

/-- `_main_sample` (`__main__.py:174-199`) with the data tree of the plan file. -/
def mainSample {σ : Type} (code : Rat → Nat) (file : Yaml) (C : Option RunConfig) (D : Setting σ) (S : DbState)
    (s : σ) : Except MainErr RunResult :=
  match loadPlan code file with
  | .error e => .error (.planFile e)
  | .ok p => runSampler C D p S s

/-- `_main_subset` (`__main__.py:202-215`). -/
def mainSubset {σ : Type} (planner : Option PlannerConfig) (C : Option RunConfig) (D : Setting σ) (S : DbState)
    (s : σ) : Except MainErr RunResult :=
  match planner with
  | none => .error .noPlanner
  | some cfg =>
    match plan D.fnmatch D.srcDb cfg with
    | .error e => .error (.plan e)
    | .ok p => runSampler C D p S s

/-- Exit status of the process (`__main__.py:218-246`). -/
def exitCode : Except MainErr RunResult → Nat
  | .error _ => 1
  | .ok R => if R.err.isSome then 1 else 0

end Subsetter
