import Verif.Model.Multiply
import Verif.Spec.Sql

/-
Vocabulary for multiplicity.
-/
namespace Subsetter.Spec

/-- The loaded table with the given name. -/
def TableOf (T : Tables) (name : Str) (t : TableMeta) : Prop :=
  ∃ k, parseTableName name = some k ∧ dget T k = some t

/-- Column `c` of the planned table `n` is to be multiplied (`sampler.py:1084-1099`): it is listed,
or part of the primary key and not exempt, or a foreign key column whose name is that of a
multiplied column of the referenced table. -/
inductive MultCol (T : Tables) (cfg : MultConfig) (ignore names : List Str) : Str → Str → Prop
  | extra {n c : Str} {cs : List Str} : n ∈ names → n ∉ ignore →
      dget cfg.extraColumns n = some cs → c ∈ cs → MultCol T cfg ignore names n c
  | pk {n c : Str} {t : TableMeta} : n ∈ names → n ∉ ignore → TableOf T n t → c ∈ t.primaryKey →
      (∀ cs, dget cfg.ignorePk n = some cs → c ∉ cs) → MultCol T cfg ignore names n c
  | fk {n c : Str} {t : TableMeta} {fk : ForeignKey} : n ∈ names → n ∉ ignore → TableOf T n t →
      fk ∈ t.foreignKeys → c ∈ fk.columns →
      MultCol T cfg ignore names (render fk.dstSchema fk.dstTable) c → MultCol T cfg ignore names n c

/-- Some table that must not be multiplied has a foreign key that would have to be multiplied. -/
def Blocked (T : Tables) (cfg : MultConfig) (ignore names : List Str) : Prop :=
  ∃ n t fk c, n ∈ names ∧ n ∈ ignore ∧ TableOf T n t ∧ fk ∈ t.foreignKeys ∧ c ∈ fk.columns ∧
    MultCol T cfg ignore names (render fk.dstSchema fk.dstTable) c

/-- Copy number `i` of a value of a multiplied column. -/
def copyVal (m i : Int) : Val → Val
  | .int v => .int (v * m + i)
  | v => v

/-- Copy number `i` of a row: the columns `cols` are multiplied. -/
def copyRow (cols : List Str) (m i : Int) (r : Row) : Row :=
  r.map fun p => (p.1, if p.1 ∈ cols then copyVal m i p.2 else p.2)

/-- NULL or an integer. -/
def Integral (v : Val) : Prop := v = .null ∨ ∃ i, v = .int i

end Subsetter.Spec
