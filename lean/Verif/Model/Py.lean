/-
Python containers.

`dict` is an association list kept in insertion order; assigning to an existing key keeps its
position (Python >= 3.7).  `set` is a duplicate-free list.
-/
namespace Subsetter

deriving instance DecidableEq for Except

/-- A Python `dict` (insertion ordered).  `metadata.py:62`, `plan_model.py:414`. -/
abbrev Dict (κ : Type u) (ν : Type v) := List (κ × ν)

variable {κ : Type u} {ν : Type v} [DecidableEq κ]

/-- `d.get(k)`; `none` models a missing key.  `planner.py:146,344`, `metadata.py:218`. -/
def dget : Dict κ ν → κ → Option ν
  | [], _ => none
  | (k, v) :: t, x => if k = x then some v else dget t x

/-- `d[k] = v`.  `planner.py:95`, `solver.py:121`. -/
def dset : Dict κ ν → κ → ν → Dict κ ν
  | [], k, v => [(k, v)]
  | (k', v') :: t, k, v => if k' = k then (k, v) :: t else (k', v') :: dset t k v

/-- `d.keys()`.  `planner.py:118,133`. -/
def dkeys (d : Dict κ ν) : List κ := d.map Prod.fst

/-- `s.add(x)` for a set.  `metadata.py:91`, `planner.py:94`. -/
def setAdd (s : List κ) (x : κ) : List κ := if x ∈ s then s else s ++ [x]

/-- `s.update(xs)` / `s | xs` for sets.  `planner.py:116`. -/
def setUnion (s : List κ) (xs : List κ) : List κ := xs.foldl setAdd s

/-- `set(xs)`.  `planner.py:118,132`. -/
def toSet (xs : List κ) : List κ := setUnion [] xs

end Subsetter
