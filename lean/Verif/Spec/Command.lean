import Verif.Model.Command
import Verif.Spec.ConfigFile
import Verif.Spec.Fnmatch
import Verif.Spec.Run

/-
Vocabulary for commands.
-/
namespace Subsetter.Spec
open Subsetter

variable {σ : Type}

/-- A table name after the patterns of `remap`, one after the other. -/
def renamed (sub : Str → Str → Str → Str) : List (Str × Str) → Str → Str
  | [], n => n
  | (search, replace) :: l, n => renamed sub l (sub search replace n)

/-- Identifiers are neither compacted nor multiplied. -/
structure KeepsIds (X : SamplerConfig) : Prop where
  compactKeys : X.compact.primaryKeys = false ∧ X.compact.autoIncrementKeys = false
  compactColumns : X.compact.columns = []
  once : X.mult.multiplier ≤ 1

/-- Rows are not transformed. -/
structure KeepsRows (X : SamplerConfig) : Prop extends KeepsIds X where
  filters : ∀ n fs, (n, fs) ∈ X.filters → fs = []

/-- The source is well formed and no name of a table has brackets. -/
structure SourceDb (D : Setting σ) : Prop where
  ok : DbOK D.srcDb
  columns : ∀ n t, (n, t) ∈ D.srcDb → t.columns.Nodup
  names : ∀ n ∈ dkeys D.srcDb, NoSet n

/-- The same of the destination. -/
structure DestinationDb (D : Setting σ) : Prop where
  ok : DbOK D.dstDb
  closed : DbClosed D.dstDb
  names : ∀ n ∈ dkeys D.dstDb, NoSet n

/-- The configuration the documents of `files` amount to is `c`, and the source it is about is reached with `src`. -/
structure Understood (M : Machine σ) (files : List Yaml) (c : Config) (src : EngineArgs) : Prop where
  config : IsConfig M.lax M.codes c (mergeFiles files)
  source : databaseEngine M.int M.env (some (str! "SUBSET_SOURCE_")) c.source = .ok src

end Subsetter.Spec
