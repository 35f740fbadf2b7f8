import Verif.Model.Py
import Verif.Model.Str

/-
Model of how configuration files are combined: `_get_config` of `/repo/subsetter/__main__.py`.
-/
namespace Subsetter

/-- A scalar of a YAML document.  `__main__.py:122,178`. -/
inductive Scalar where
  | null
  | bool (b : Bool)
  | int (i : Int)
  | float (q : Rat)
  | str (s : Str)
  deriving DecidableEq, Repr

/-- What `yaml.safe_load` returns: scalars, lists and dicts (with string keys).
`__main__.py:122,178`. -/
inductive Yaml where
  | leaf (s : Scalar)
  | seq (l : List Yaml)
  | map (d : List (Str × Yaml))

/-- The items of a dict.  `__main__.py:107-113`. -/
abbrev Items := List (Str × Yaml)

mutual
/-- `_dict_merge` (`__main__.py:106-115`). -/
def dictMerge (lhs : Yaml) : Yaml → Yaml
  | .map r =>
    match lhs with
    | .map l => .map (mergeItems l r)
    | _ => .map r
  | rhs => rhs
/-- The loop over `rhs.items()` (`__main__.py:109-113`). -/
def mergeItems (result : Items) : Items → Items
  | [] => result
  | x :: rest => mergeItems (mergeItem result x) rest
/-- One iteration of the loop of `_dict_merge`.  `__main__.py:109-113`. -/
def mergeItem (result : Items) : Str × Yaml → Items
  | (key, val) =>
    match dget result key with
    | some old => dset result key (dictMerge old val)
    | none => dset result key val
end

/-- `config_data` after reading the files (`__main__.py:118-122`). -/
def mergeFiles (files : List Yaml) : Yaml := files.foldl dictMerge (.map [])

end Subsetter
