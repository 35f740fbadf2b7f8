import Verif.Model.Filters

/-
Vocabulary for filters.
-/
namespace Subsetter.Spec
open Subsetter

variable {V : Type}

/-- The value a row has under a column name. -/
def valueOf (cols : List Str) (row : List V) (c : Str) : Option V :=
  ((cols.zip row).find? fun p => p.1 == c).map Prod.snd

/-- The columns a simple filter names. -/
def SimpleCfg.columns : SimpleCfg V → List Str
  | .zero cs | .omit cs | .null cs | .constant cs _ | .randomInt cs _ _ | .randomFloat cs _ _
  | .randomString cs _ _ _ | .uuid cs | .fake cs _ _ | .plugin cs _ => cs

/-- The columns a filter may change or remove. -/
def FilterCfg.writes : FilterCfg V → List Str
  | .simple c => SimpleCfg.columns c
  | .multiplex _ conds => conds.flatMap fun p => SimpleCfg.columns p.2

/-- The columns a simple filter looks at: plugins may look at the old values, `zero` looks at their
type. -/
def SimpleCfg.reads : SimpleCfg V → List Str
  | .zero cs | .plugin cs _ => cs
  | _ => []

/-- The columns a filter looks at. -/
def FilterCfg.reads : FilterCfg V → List Str
  | .simple c => SimpleCfg.reads c
  | .multiplex column conds => column :: conds.flatMap fun p => SimpleCfg.reads p.2

/-- The filter removes the column or replaces its value by one that does not depend on the row. -/
def FilterCfg.Scrubs (f : FilterCfg V) (c : Str) : Prop :=
  ∃ g, f = .simple g ∧ c ∈ SimpleCfg.columns g ∧ c ∉ SimpleCfg.reads g

/-- The columns removed by a list of filters. -/
def omitted : List (FilterCfg V) → List Str
  | [] => []
  | .simple (.omit cs) :: fs => cs ++ omitted fs
  | _ :: fs => omitted fs

/-- A simple filter is well formed for the columns `cols`: it names at least one column, none twice,
and only existing ones. -/
def SimpleCfg.Fits (cols : List Str) (c : SimpleCfg V) : Prop :=
  SimpleCfg.columns c ≠ [] ∧ (SimpleCfg.columns c).Nodup ∧ ∀ d ∈ SimpleCfg.columns c, d ∈ cols

/-- `omit` filters. -/
def SimpleCfg.IsOmit : SimpleCfg V → Prop
  | .omit _ => True
  | _ => False

/-- Further conditions on the options of a simple filter. -/
def SimpleCfg.OptionsOK (plugins : Nat → Bool) : SimpleCfg V → Prop
  | .constant cs vs => vs.length = cs.length
  | .randomString _ _ a custom => a = .custom → ∃ s, custom = some s ∧ s ≠ []
  | .plugin _ p => plugins p = true
  | _ => True

/-- The rows differ at most in the value of column `c`. -/
def SameBut (cols : List Str) (c : Str) (r r' : List V) : Prop :=
  r.length = r'.length ∧ ∀ i : Nat, cols[i]? ≠ some c → r[i]? = r'[i]?

end Subsetter.Spec
