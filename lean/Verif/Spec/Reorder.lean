import Verif.Spec.SameOutput
import Verif.Spec.Filters

/-
Vocabulary for C101: the order of filters.
-/
namespace Subsetter.Spec
open Subsetter

/-- Two filters that work on different columns, keep all columns, and of which at most one draws random values or calls a
plugin. -/
structure Independent (f g : SimpleCfg Val) : Prop where
  keeps : ¬ SimpleCfg.IsOmit f ∧ ¬ SimpleCfg.IsOmit g
  columns : ∀ c ∈ SimpleCfg.columns f, c ∉ SimpleCfg.columns g
  settled : SimpleCfg.Settled f ∨ SimpleCfg.Settled g

/-- Lists of filters that differ in the order of independent neighbours. -/
inductive Reordered : List (FilterCfg Val) → List (FilterCfg Val) → Prop
  | refl (fs : List (FilterCfg Val)) : Reordered fs fs
  | swap {pre post : List (FilterCfg Val)} {f g : SimpleCfg Val} : Independent f g →
    Reordered (pre ++ .simple f :: .simple g :: post) (pre ++ .simple g :: .simple f :: post)
  | trans {fs gs hs : List (FilterCfg Val)} : Reordered fs gs → Reordered gs hs → Reordered fs hs

/-- The same for the filters of all tables. -/
def ReorderedAll (fs fs' : Dict Str (List (FilterCfg Val))) : Prop :=
  List.Forall₂ (fun a b => a.1 = b.1 ∧ Reordered a.2 b.2) fs fs'

end Subsetter.Spec
