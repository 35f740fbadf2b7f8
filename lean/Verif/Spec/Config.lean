import Verif.Model.Config

/-
Vocabulary for configuration files.
-/
namespace Subsetter.Spec
open Subsetter

/-- The value at a path of keys. -/
def valueAt : Yaml → List Str → Option Yaml
  | y, [] => some y
  | .map d, k :: p =>
    match dget d k with
    | some v => valueAt v p
    | none => none
  | _, _ :: _ => none

/-- The document is a mapping. -/
def IsMap (y : Yaml) : Prop := ∃ d, y = .map d

/-- No mapping (outside of lists) has a key twice. -/
def KeysOnce (y : Yaml) : Prop := ∀ p d, valueAt y p = some (.map d) → (dkeys d).Nodup

/-- The file puts something that is not a mapping in a place above the path. -/
def Replaces (y : Yaml) (p : List Str) : Prop := ∃ q v, q <+: p ∧ q ≠ p ∧ valueAt y q = some v ∧ ¬ IsMap v

/-- The file says nothing about the path: it neither has a value there nor replaces what is above. -/
def Silent (y : Yaml) (p : List Str) : Prop := valueAt y p = none ∧ ¬ Replaces y p

end Subsetter.Spec
