import Verif.Spec.Command
import Verif.Spec.MergeInto

/-
Vocabulary for commands that merge samples.
-/
namespace Subsetter.Spec
open Subsetter

variable {σ : Type}

/-- A call of `subset` without options, the databases it is about and the state of the outside world it starts in. -/
structure Call (σ : Type) where
  machine : Machine σ
  files : List Yaml
  start : σ

/-- What a call does to a destination with contents `S`. -/
def Call.run (i : Call σ) (S : DbState) : Except CommandErr Outcome :=
  cmdSubset i.machine i.files false false S (fun _ => none) i.start

/-- The contents of the destination after a call. -/
def Call.after (i : Call σ) (S : DbState) : DbState :=
  match i.run S with
  | .ok (.database R) => R.final
  | _ => S

/-- The contents after some calls. -/
def afterCalls : List (Call σ) → DbState → DbState
  | [], S => S
  | i :: is, S => afterCalls is (i.after S)

end Subsetter.Spec
