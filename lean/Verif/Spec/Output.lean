import Verif.Model.Output
import Verif.Spec.Filters
import Verif.Spec.Multiply

/-
Vocabulary for the output of result sets.
-/
namespace Subsetter.Spec
open Subsetter

variable {σ D : Type}

/-- A value shifted by an optional offset; NULL stays NULL. -/
def shiftVal (o : Option Int) : Val → Val
  | .int n => .int (n + o.getD 0)
  | v => v

/-- The value written for a value of column `c` after filtering: copy `i` of `m` if the column is
multiplied, shifted if it has an offset. -/
def outVal (mult : List Str) (m i : Int) (offsets : Dict Str Int) (c : Str) (v : Val) : Val :=
  shiftVal (dget offsets c) (if c ∈ mult then copyVal m i v else v)

/-- `out`, with columns `cols`, is copy number `i` of row `r`; the outside world goes from `s` to
`s'`. -/
def IsCopy (W : Outside σ Val) (ch : Chain Val) (cols mult : List Str) (m : Nat) (offsets : Dict Str Int)
    (r : List Val) (i : Nat) (s : σ) (out : List Val) (s' : σ) : Prop :=
  ∃ f, ch.run W r s = .ok (f, s') ∧ out.length = cols.length ∧
    ∀ c ∈ cols, ∃ v, valueOf ch.colsOut f c = some v ∧
      valueOf cols out c = some (outVal mult m i offsets c v)

/-- `outs` are the first `outs.length` copies when every row is copied `m` times: number `k * m + i` is
copy `i` of row `k`. -/
def FirstCopies {ρ ο : Type} (step : ρ → Nat → σ → ο → σ → Prop) (m : Nat) (rows : List ρ)
    (s : σ) (outs : List ο) : Prop :=
  outs.length ≤ rows.length * m ∧
  ∃ ss : Nat → σ, ss 0 = s ∧ ∀ (k i : Nat) (r : ρ) (o : ο), rows[k]? = some r → i < m →
    outs[k * m + i]? = some o → step r i (ss (k * m + i)) o (ss (k * m + i + 1))

/-- `d'` results from `d` by committing the batches in order. -/
inductive Commits (flush : List (List Val) → D → Except OutErr D) : D → List (List (List Val)) → D → Prop
  | nil (d : D) : Commits flush d [] d
  | cons {d d1 d2 : D} {b : List (List Val)} {bs : List (List (List Val))} :
    flush b d = .ok d1 → Commits flush d1 bs d2 → Commits flush d (b :: bs) d2

/-- The columns written to a table: generated ones are left out. -/
def writtenColumns (ch : Chain Val) (d : DestTable) : List Str :=
  ch.colsOut.filter fun c => decide (c ∉ d.computed)

/-- The rows with a given primary key. -/
def withKey (pk : List Str) (T : List Row) (k : List Val) : List Row := T.filter fun r => decide (pk.map r.get = k)

/-- No two rows have the same primary key. -/
def KeysUnique (pk : List Str) (T : List Row) : Prop := (T.map fun r => pk.map r.get).Nodup

/-- The primary key of a written row with columns `cols`. -/
def keyOf (cols pk : List Str) (b : List Val) : List Val := pk.map fun c => (valueOf cols b c).getD .null

/-- All batches but the last have `n` rows, the last one at least one and at most `n`. -/
def Batches {α : Type} (n : Nat) (bs : List (List α)) : Prop :=
  (∀ b ∈ bs, b ≠ [] ∧ b.length ≤ n) ∧ ∀ b ∈ bs.dropLast, b.length = n

/-- `r` is the row the table holds after `b` was inserted as a new row: columns that are not written have
their default. -/
def StoredAs (d : DestTable) (cols : List Str) (b : List Val) (r : Row) : Prop :=
  dkeys r = (d.columns.filter fun c => decide (c ∉ d.computed)) ∧
  (∀ c ∈ cols, valueOf cols b c = some (r.get c)) ∧
  ∀ c ∈ d.columns, c ∉ d.computed → c ∉ cols → r.get c = d.default c

/-- A batch can be written to the table: no column is unknown or generated and every row has all values. -/
def Fitting (d : DestTable) (cols : List Str) (batch : List (List Val)) : Prop :=
  cols.Nodup ∧ (∀ c ∈ cols, c ∈ d.columns ∧ c ∉ d.computed) ∧ ∀ b ∈ batch, b.length = cols.length

/-- The value of a column that is not written, after `replace`: SQLite sets it to its default, the others
keep what was there. -/
def unwritten (dialect : Dialect) (d : DestTable) (cols : List Str) (old : List Row) (c : Str) : Val :=
  if dialect = .sqlite ∧ ∃ e ∈ cols, e ∉ d.pk then d.default c
  else match old with
    | [] => d.default c
    | r :: _ => r.get c

end Subsetter.Spec
