import Verif.Spec.Planner

/-
Vocabulary for statements about inputs of the planner that differ only in the order of things that have no order.
-/
namespace Subsetter.Spec

/-- Two descriptions of a table whose foreign keys and unique constraints come in different orders. -/
structure SameTable (t t' : TableMeta) : Prop where
  schema : t.schema = t'.schema
  name : t.name = t'.name
  columns : t.columns = t'.columns
  primaryKey : t.primaryKey = t'.primaryKey
  uniques : ∀ u, u ∈ t.uniques ↔ u ∈ t'.uniques
  foreignKeys : t.foreignKeys.Perm t'.foreignKeys
  revForeignKeys : t.revForeignKeys.Perm t'.revForeignKeys

/-- The same tables in different orders. -/
structure SameTables (T T' : Tables) : Prop where
  left : ∀ k t, (k, t) ∈ T → ∃ t', (k, t') ∈ T' ∧ SameTable t t'
  right : ∀ k t', (k, t') ∈ T' → ∃ t, (k, t) ∈ T ∧ SameTable t t'

/-- The same database, reflected in different orders. -/
structure SameDb (db db' : Dict Str TableMeta) : Prop where
  left : ∀ n t, (n, t) ∈ db → ∃ t', (n, t') ∈ db' ∧ SameTable t t'
  right : ∀ n t', (n, t') ∈ db' → ∃ t, (n, t) ∈ db ∧ SameTable t t'

/-- Configurations that name the same selections, targets, and tables to ignore and to pass through. -/
structure SameConfig (cfg cfg' : PlannerConfig) : Prop where
  select : ∀ n, n ∈ cfg.select ↔ n ∈ cfg'.select
  targets : ∀ n, dget cfg.targets n = dget cfg'.targets n
  ignore : ∀ n, n ∈ cfg.ignore ↔ n ∈ cfg'.ignore
  passthrough : ∀ n, n ∈ cfg.passthrough ↔ n ∈ cfg'.passthrough
  tableConstraints : ∀ n, dget cfg.tableConstraints n = dget cfg'.tableConstraints n
  ignoreFks : cfg.ignoreFks = cfg'.ignoreFks
  extraFks : cfg.extraFks = cfg'.extraFks
  infer : cfg.infer = cfg'.infer
  includeDependencies : cfg.includeDependencies = cfg'.includeDependencies

/-- Two plans that differ only in the order of the tables passed through. -/
def AlikePlan (p p' : Plan) : Prop :=
  ∃ pass pass' sampled, p.queries = pass ++ sampled ∧ p'.queries = pass' ++ sampled ∧ pass.Perm pass' ∧
    p.passthrough = pass.map Prod.fst ∧ p'.passthrough = pass'.map Prod.fst

end Subsetter.Spec
