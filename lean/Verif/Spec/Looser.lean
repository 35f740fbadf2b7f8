import Verif.Spec.Planner

/-
Vocabulary for comparing the samples of two configurations.
-/
namespace Subsetter.Spec

/-- Table `a` is listed before table `b`, and one refers to the other: the sample of `b` depends on that of `a`. -/
def Feeds (cfg : PlannerConfig) (T : Tables) (p : Plan) (a b : Key) : Prop :=
  Earlier p a b ∧ (UsedRef cfg T a b ∨ UsedRef cfg T b a)

/-- Neither an amount nor a percentage of zero limits the rows of a target. -/
def Unlimited (x : TargetConfig) : Prop := x.amount = none ∧ (x.all = true ∨ ∀ pc, x.percent = some pc → 0 < pc)

/-- For table `k` the second configuration, engine and source are at least as generous as the first. -/
structure Looser (cfg cfg' : PlannerConfig) (E E' : Engine) (src src' : Key → List Row) (k : Key) : Prop where
  source : ∀ r ∈ src k, r ∈ src' k
  constraints : ∀ r, MeetsConstraints E ((dget cfg.tableConstraints (k.1 ++ '.' :: k.2)).getD []) r →
    MeetsConstraints E' ((dget cfg'.tableConstraints (k.1 ++ '.' :: k.2)).getD []) r
  target : ∀ x x', dget cfg.targets (k.1 ++ '.' :: k.2) = some x → dget cfg'.targets (k.1 ++ '.' :: k.2) = some x' →
    (∀ r ∈ targetRows E src k x, r ∈ targetRows E' src' k x') ∧ (Unlimited x → Unlimited x') ∧
    (x'.all = true → x'.amount = none ∨ x.all = true)

end Subsetter.Spec
