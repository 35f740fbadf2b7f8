import Verif.Spec.MergeCommand
import Verif.Spec.MergeCreate

/-
Vocabulary for commands that create missing tables and merge samples.
-/
namespace Subsetter.Spec
open Subsetter

variable {σ : Type}

/-- The same machine where destinations have other tables. -/
def withTables (M : Machine σ) (db : Dict Str TableMeta) : Machine σ :=
  { M with setting := fun a b => { M.setting a b with dstDb := db }, setting_schema := M.setting_schema, setting_fnmatch := M.setting_fnmatch }

/-- The call with option `--create` instead, when the destination is database `B`. -/
def Call.create (i : Call σ) (B : Database) : Except CommandErr Outcome :=
  cmdSubset (withTables i.machine B.tables) i.files false true B.rows (fun _ => none) i.start

/-- The database after the call. -/
def Call.created (i : Call σ) (B : Database) : Database :=
  match i.create B with
  | .ok (.database R) => ⟨R.schema, R.final⟩
  | _ => B

/-- The database after some calls. -/
def createdBy : List (Call σ) → Database → Database
  | [], B => B
  | i :: is, B => createdBy is (i.created B)

end Subsetter.Spec
