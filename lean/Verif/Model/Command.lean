import Verif.Model.ConfigFile
import Verif.Model.Main
import Verif.Model.RunDirectory
import Verif.Model.Fnmatch

/-
Model of the commands `plan`, `sample` and `subset` from the documents of the configuration to the exit status
(`/repo/subsetter/__main__.py:101-246`): validation (`Verif.Model.ConfigFile`), connections (`Verif.Model.Connection`),
planning and sampling to a database or a directory.
-/
namespace Subsetter

/-- What a command finds outside of the files: how pydantic converts scalars, the environment, `re.sub`, and the
databases by the arguments they are connected with.
`__main__.py:101-145`, `common.py:40-46,183-221`, `sampler.py:333-341,588-592`. -/
structure Machine (σ : Type) where
  lax : Lax
  codes : Codes
  int : Str → Option Int
  env : Dict Str Str
  sub : Str → Str → Str → Str
  /-- reflected tables of a source -/
  schema : EngineArgs → Dict Str TableMeta
  /-- a source and, if the output is a database, a destination -/
  setting : EngineArgs → Option EngineArgs → Setting σ
  setting_schema : ∀ a b, (setting a b).srcDb = schema a
  setting_fnmatch : ∀ a b, (setting a b).fnmatch = fnmatch

/-- Reasons to stop with nothing written.  `__main__.py:123-138,150-152,179-193,239-246`. -/
inductive CommandErr where
  | config (e : LoadErr)
  | connection (e : ConnErr)
  | main (e : MainErr)
  deriving DecidableEq, Repr

/-- What a run leaves: a destination or the files of a directory, and the error it ended with.
`sampler.py:721-751`, `__main__.py:195-199,211-215`. -/
inductive Outcome where
  | database (R : RunResult)
  | directory (F : Files) (e : Option RunErr)

/-- `source.database_engine(env_prefix="SUBSET_SOURCE_")` (`planner.py:36`, `sampler.py:715`). -/
def sourceEngine {σ : Type} (M : Machine σ) (c : Config) : Except CommandErr EngineArgs :=
  match databaseEngine M.int M.env (some (str! "SUBSET_SOURCE_")) c.source with
  | .error e => .error (.connection e)
  | .ok a => .ok a

/-- `Sampler(config.source, config.sampler).sample(plan, truncate=…, create=…)` (`__main__.py:195-199,211-215`) with the
output chosen by `SamplerOutput.from_config` (`sampler.py:333-341`).  The engine of the destination is made after the
source has been loaded and the filters have been validated (`sampler.py:399,738`); here its errors come first. -/
def cmdRun {σ : Type} (M : Machine σ) (src : EngineArgs) (C : Option SamplerConfig) (truncate create : Bool) (p : Plan)
    (S : DbState) (F : Files) (s : σ) : Except CommandErr Outcome :=
  match C with
  | none => .error (.main .noSampler)
  | some C =>
    match C.output with
    | .directory _ =>
      let (F', e) := sampleDirectory (runConfig M.sub C truncate create) (M.setting src none) p F s
      .ok (.directory F' e)
    | .database db _ _ _ =>
      match databaseEngine M.int M.env (some (str! "SUBSET_DESTINATION_")) db with
      | .error e => .error (.connection e)
      | .ok dst => .ok (.database (sample (runConfig M.sub C truncate create) (M.setting src (some dst)) p S s))

/-- `_main_plan` (`__main__.py:148-171`): the plan to be written. -/
def cmdPlan {σ : Type} (M : Machine σ) (files : List Yaml) : Except CommandErr Plan :=
  match getConfig M.lax M.codes files with
  | .error e => .error (.config e)
  | .ok c =>
    match c.planner with
    | none => .error (.main .noPlanner)
    | some P =>
      match sourceEngine M c with
      | .error e => .error e
      | .ok src =>
        match plan fnmatch (M.schema src) P with
        | .error e => .error (.main (.plan e))
        | .ok p => .ok p

/-- `_main_sample` (`__main__.py:174-199`). -/
def cmdSample {σ : Type} (M : Machine σ) (files : List Yaml) (planFile : Yaml) (truncate create : Bool) (S : DbState)
    (F : Files) (s : σ) : Except CommandErr Outcome :=
  match getConfig M.lax M.codes files with
  | .error e => .error (.config e)
  | .ok c =>
    match loadPlan M.codes.float planFile with
    | .error e => .error (.main (.planFile e))
    | .ok p =>
      match sourceEngine M c with
      | .error e => .error e
      | .ok src => cmdRun M src c.sampler truncate create p S F s

/-- `_main_subset` (`__main__.py:202-215`). -/
def cmdSubset {σ : Type} (M : Machine σ) (files : List Yaml) (truncate create : Bool) (S : DbState) (F : Files) (s : σ) :
    Except CommandErr Outcome :=
  match getConfig M.lax M.codes files with
  | .error e => .error (.config e)
  | .ok c =>
    match c.planner with
    | none => .error (.main .noPlanner)
    | some P =>
      match sourceEngine M c with
      | .error e => .error e
      | .ok src =>
        match plan fnmatch (M.schema src) P with
        | .error e => .error (.main (.plan e))
        | .ok p => cmdRun M src c.sampler truncate create p S F s

/-- Exit status of `sample` and `subset` (`__main__.py:218-246`). -/
def exitStatus : Except CommandErr Outcome → Nat
  | .error _ => 1
  | .ok (.database R) => if R.err.isSome then 1 else 0
  | .ok (.directory _ e) => if e.isSome then 1 else 0

end Subsetter
