import Verif.Spec.Looser

/-
Vocabulary for samples of sources that lack rows which were not sampled.
-/
namespace Subsetter.Spec

/-- Conditions mean the same in both databases; what they draw at random may differ. -/
structure SameMeaning (E E' : Engine) : Prop where
  op : E'.op = E.op
  sql : E'.sql = E.sql

/-- The options of a target leave nothing to chance. -/
def NoDraw (x : TargetConfig) : Prop := x.amount = none ∧ (x.all = true ∨ x.percent = none)

/-- Of every planned table, `src'` has the rows of the sample `S`, and of the source `src` no others than it has, in
the same order. -/
def Between (p : Plan) (S src src' : Key → List Row) : Prop :=
  ∀ k q, Planned p k q → (S k).Sublist (src' k) ∧ (src' k).Sublist (src k)

/-- Drawing again from the rows drawn gives the same ones: no percentage is drawn, and an amount only where no row is
added for tables that refer to the target. -/
def DrawsAgain (cfg : PlannerConfig) (T : Tables) (p : Plan) (k : Key) (x : TargetConfig) : Prop :=
  (x.all = true ∨ x.percent = none) ∧ (x.amount = none ∨ x.all = true ∨ ∀ a, ¬ Feeds cfg T p a k)

end Subsetter.Spec
