import Verif.Spec.Planner

/-
Vocabulary for statements about which configurations can be planned, and which tables a plan has.
-/
namespace Subsetter.Spec

/-- A loaded table that is neither passed through nor ignored. -/
def Ordinary (cfg : PlannerConfig) (T : Tables) (k : Key) : Prop :=
  k ∈ T.map Prod.fst ∧ ¬ Named cfg.passthrough k ∧ ¬ Named cfg.ignore k

/-- One such table refers to another by a key the planner is to use. -/
def Link (cfg : PlannerConfig) (T : Tables) (a b : Key) : Prop :=
  UsedRef cfg T a b ∧ Ordinary cfg T a ∧ Ordinary cfg T b

/-- Targets, and tables linked to them in either direction. -/
inductive Linked (cfg : PlannerConfig) (T : Tables) : Key → Prop
  | target {k : Key} : k.1 ++ '.' :: k.2 ∈ cfg.targets.map Prod.fst → Ordinary cfg T k → Linked cfg T k
  | along {a b : Key} : Linked cfg T a → Link cfg T a b → Linked cfg T b
  | against {a b : Key} : Linked cfg T a → Link cfg T b a → Linked cfg T b

/-- What a configuration without table constraints has to meet. -/
structure CanPlan (cfg : PlannerConfig) (T : Tables) : Prop where
  /-- Names are of the form `schema.table`. -/
  names : ∀ n ∈ cfg.ignore ++ cfg.passthrough ++ (cfg.ignoreFks.map Prod.fst ++ cfg.ignoreFks.map Prod.snd) ++
    (cfg.extraFks.map ExtraFk.srcTable ++ cfg.extraFks.map ExtraFk.dstTable), '.' ∈ n
  /-- Targets are loaded and neither passed through nor ignored. -/
  targets : ∀ s ∈ cfg.targets.map Prod.fst, ∃ k : Key, k.1 ++ '.' :: k.2 = s ∧ Ordinary cfg T k
  /-- Tables linked to targets do not refer to themselves in a circle. -/
  acyclic : ∀ k, Linked cfg T k → ¬ Relation.TransGen (Link cfg T) k k
  /-- With dependencies included, tables that are not ignored refer to no ignored table. -/
  ignored : cfg.includeDependencies = true → ∀ a b, UsedRef cfg T a b → Named cfg.ignore b → Named cfg.ignore a
  /-- Passthrough tables refer to passthrough tables only. -/
  passed : ∀ a b, UsedRef cfg T a b → Named cfg.passthrough a → Named cfg.passthrough b
  /-- References lead to loaded tables. -/
  closed : ∀ a b, UsedRef cfg T a b → b ∈ T.map Prod.fst

end Subsetter.Spec
