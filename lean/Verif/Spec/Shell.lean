import Verif.Model.Shell
import Verif.Model.PlanFile

/-
Vocabulary for the files commands read and write.
-/
namespace Subsetter.Spec
open Subsetter

/-- The paths named by `-c`, in order, `subsetter.yaml` if there is none. -/
inductive ConfigPaths : Args → List Str → Prop
  | default {a : Args} : a.config = [] → ConfigPaths a [str! "subsetter.yaml"]
  | given {a : Args} : a.config ≠ [] → ConfigPaths a a.config

/-- The texts found on opening the paths one after the other: standard input for `-`, where after the first time
nothing is left. -/
inductive Opened (sh : Shell) : Bool → List Str → List Yaml → Prop
  | nil {used : Bool} : Opened sh used [] []
  | file {used : Bool} {path : Str} {paths : List Str} {y : Yaml} {ys : List Yaml} : path ≠ str! "-" →
      sh.files path = some (some y) → Opened sh used paths ys → Opened sh used (path :: paths) (y :: ys)
  | stdin {paths : List Str} {y : Yaml} {ys : List Yaml} : sh.stdin = some y → Opened sh true paths ys →
      Opened sh false (str! "-" :: paths) (y :: ys)
  | empty {paths : List Str} {ys : List Yaml} : Opened sh true paths ys →
      Opened sh true (str! "-" :: paths) (.leaf .null :: ys)

/-- The configuration files of a command are `ys`. -/
def ConfigRead (a : Args) (sh : Shell) (ys : List Yaml) : Prop :=
  ∃ paths, ConfigPaths a paths ∧ Opened sh false paths ys

/-- The plan file of `sample` is `y`. -/
inductive PlanRead (a : Args) (sh : Shell) : Yaml → Prop
  | file {y : Yaml} : a.plan ≠ str! "-" → sh.files a.plan = some (some y) → PlanRead a sh y
  | stdin {paths : List Str} {y : Yaml} : a.plan = str! "-" → ConfigPaths a paths → str! "-" ∉ paths → sh.stdin = some y →
      PlanRead a sh y
  | empty {paths : List Str} : a.plan = str! "-" → ConfigPaths a paths → str! "-" ∈ paths → PlanRead a sh (.leaf .null)

/-- What a run yields, if it was begun. -/
def begun : Except CommandErr Outcome → Option Outcome
  | .ok o => some o
  | .error _ => none

/-- A file for the plan is named. -/
def ToFile (a : Args) (path : Str) : Prop := a.output = some path ∧ path ≠ []

/-- Where the plan is written is left open. -/
def ToStdout (a : Args) : Prop := ∀ path, ¬ ToFile a path

/-- `dump` writes plans that can be written. -/
def Dumps (code : Rat → Nat) (dump : Plan → Yaml) : Prop := ∀ p y, DumpsPlan code p y → DumpsPlan code p (dump p)

/-- Everything printed, apart from logged statements. -/
def docs : List Printed → List Yaml
  | [] => []
  | .log :: l => docs l
  | .doc y :: l => y :: docs l

end Subsetter.Spec
