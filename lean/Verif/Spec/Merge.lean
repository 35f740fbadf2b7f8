import Verif.Model.Merge
import Verif.Spec.Dest

/-
Vocabulary for merge mode.
-/
namespace Subsetter.Spec
open Subsetter

/-- `m` is the largest integer in a column, `none` if there is none. -/
def IsMax (rows : List Row) (c : Str) : Option Int → Prop
  | none => ∀ r ∈ rows, ∀ v, r.get c ≠ .int v
  | some m => (∃ r ∈ rows, r.get c = .int m) ∧ ∀ r ∈ rows, ∀ v, r.get c = .int v → v ≤ m

/-- What merging is about: the planned tables that are not passed through. -/
structure MergeCtx where
  remap : Str → Str
  /-- source tables -/
  src : Tables
  /-- destination tables -/
  dest : Tables
  contents : DbState
  pass : List Str
  planned : List Str

/-- The names are usable: tables are listed once and no two planned tables have the same destination (which is
checked beforehand, see C37). -/
structure MergeCtx.OK (M : MergeCtx) : Prop where
  dest : (M.dest.map Prod.fst).Nodup
  src : (M.src.map Prod.fst).Nodup
  planned : M.planned.Nodup
  inj : ∀ n ∈ M.planned, ∀ n' ∈ M.planned, ∀ k, DestOf M.remap n k → DestOf M.remap n' k → n = n'

/-- `n` is merged into the destination table `k`. -/
def Merged (M : MergeCtx) (n : Str) (k : Key) : Prop := n ∈ M.planned ∧ n ∉ M.pass ∧ DestOf M.remap n k

/-- Table `n` has its keys shifted: the destination has the single integer primary key column `c`, whose
largest value is `m`. -/
def Shifted (M : MergeCtx) (n : Str) (c : Str) (m : Option Int) : Prop :=
  ∃ k t, Merged M n k ∧ (k, t) ∈ M.dest ∧ t.primaryKey = [c] ∧ c ∈ t.intColumns ∧ IsMax (M.contents k) c m

/-- Column `c` of table `n` refers by itself to the primary key of table `n'`. -/
def KeyRef (M : MergeCtx) (n c n' : Str) : Prop :=
  ∃ k t fk p, parseTableName n = some k ∧ (k, t) ∈ M.src ∧ fk ∈ t.foreignKeys ∧ fk.columns = [c] ∧
    ((fk.dstSchema, fk.dstTable), p) ∈ M.src ∧ fk.dstColumns = p.primaryKey ∧
    n' = fk.dstSchema ++ '.' :: fk.dstTable

/-- In the destination, table `k` has the primary key column `c` and no other, and it holds integers. -/
def IntKey (M : MergeCtx) (k : Key) (c : Str) : Prop :=
  ∃ t, (k, t) ∈ M.dest ∧ t.primaryKey = [c] ∧ c ∈ t.intColumns

/-- Column `c` of destination table `k` holds only values of column `d` of table `k'`. -/
def Covered (M : MergeCtx) (k : Key) (c : Str) (k' : Key) (d : Str) : Prop :=
  ∀ r ∈ M.contents k, r.get c ≠ .null → ∃ p ∈ M.contents k', p.get d = r.get c

/-- A row with its columns shifted by offsets. -/
def shiftRow (offsets : Dict Str Int) (r : Row) : Row := r.map fun e => (e.1, shiftVal (dget offsets e.1) e.2)

end Subsetter.Spec
