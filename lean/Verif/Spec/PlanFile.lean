import Verif.Spec.Planner

/-
Vocabulary for plans in files.
-/
namespace Subsetter.Spec

/-- Literals of a configuration are strings, integers and floats (`SQLLiteralType`, `common.py:18`). -/
def Literal (code : Rat → Nat) : Val → Prop
  | .null => False
  | .int _ => True
  | .str _ => True
  | .other n => ∃ q, code q = n

def LiteralConfig (code : Rat → Nat) (cfg : PlannerConfig) : Prop :=
  (∀ n cs, dget cfg.tableConstraints n = some cs → ∀ c ∈ cs, Literal code c.value) ∧
  ∀ n x, dget cfg.targets n = some x → ∀ c vs, (c, vs) ∈ x.in_ → ∀ v ∈ vs, Literal code v

/-- Two plans have the same query for every table and the same passthrough tables. -/
def SamePlan (p p' : Plan) : Prop :=
  p'.queries.Perm p.queries ∧ p'.passthrough = p.passthrough

end Subsetter.Spec
