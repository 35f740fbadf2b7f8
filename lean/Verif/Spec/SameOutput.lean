import Verif.Spec.RunDirectory

/-
Specification for C96: what the two kinds of output have in common.
-/
namespace Subsetter.Spec
open Subsetter

/-- The values a simple filter gives depend on the row only: it neither generates values nor calls a plugin. -/
def SimpleCfg.Settled {V : Type} : SimpleCfg V → Prop
  | .zero _ | .omit _ | .null _ | .constant _ _ => True
  | _ => False

/-- The same for any filter: all filters it can choose from are settled. -/
def FilterCfg.Settled {V : Type} : FilterCfg V → Prop
  | .simple c => SimpleCfg.Settled c
  | .multiplex _ conds => ∀ x ∈ conds, SimpleCfg.Settled x.2

/-- A row of the table `d` says the same as a line of a file: columns of the line that the table does not generate have
their value, shifted by `shift`; columns that are not in the line have their default. -/
structure Agrees (d : DestTable) (shift : Str → Option Int) (line row : Row) : Prop where
  columns : dkeys row = (d.columns.filter fun c => decide (c ∉ d.computed))
  known : ∀ c ∈ dkeys line, c ∉ d.computed → c ∈ d.columns
  values : ∀ c ∈ dkeys line, c ∉ d.computed → row.get c = shiftVal (shift c) (line.get c)
  others : ∀ c ∈ d.columns, c ∉ d.computed → c ∉ dkeys line → row.get c = d.default c

end Subsetter.Spec
