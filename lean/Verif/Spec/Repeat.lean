import Verif.Spec.RunWorks
import Verif.Spec.SameOutput

/-
Vocabulary for C98: runs that can be repeated.
-/
namespace Subsetter.Spec
open Subsetter

variable {σ : Type}

/-- The run adds to what is there, and rows whose primary key is there are skipped or replaced: every table copied has a
primary key, and its columns are written. -/
structure Repeatable (C : RunConfig) (D : Setting σ) (p : Plan) : Prop where
  strategy : C.strategy ≠ .error
  merge : C.merge = false
  truncate : C.truncate = false
  create : C.create = false
  dialect : D.dialect ≠ .generic
  key : ∀ n k kd t td, Copied C D p D.dstDb n k kd t td → td.primaryKey ≠ [] ∧
    ∀ c ∈ td.primaryKey, c ∈ t.columns ∧ c ∉ omitted (filtersOf C n) ∧ c ∉ (target D kd td).computed
  /-- SQLite cannot replace rows with generated columns -/
  generated : C.strategy = .replace → D.dialect = .sqlite → ∀ n k kd t td, Copied C D p D.dstDb n k kd t td →
    ∀ c ∈ td.columns, c ∉ (target D kd td).computed

end Subsetter.Spec
