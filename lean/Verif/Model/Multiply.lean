import Verif.Model.Metadata
import Verif.Model.Sql

/-
Model of multiplicity in `/repo/subsetter/sampler.py`: `_multiply_column` and
`_get_multiplied_columns`.
-/
namespace Subsetter

/-- `_multiply_column` (`sampler.py:298-303`); `none` models the `TypeError` for a value that is
neither NULL nor an integer. -/
def multiplyColumn (v : Val) (multiplier iteration : Int) : Option Val :=
  match v with
  | .null => some .null
  | .int i => some (.int (i * multiplier + iteration))
  | _ => none

/-- `MultiplicityConfig` (`config_model.py:88-92`). -/
structure MultConfig where
  multiplier : Int := 1
  ignoreTables : List Str := []
  extraColumns : Dict Str (List Str) := []
  ignorePk : Dict Str (List Str) := []

/-- Exceptions of `_get_multiplied_columns`.  `sampler.py:1087-1165`. -/
inductive MultErr where
  | badName
  | keyError
  /-- `sampler.py:1143` -/
  | passthroughFk
  /-- `sampler.py:1160` -/
  | notIntegral (t c : Str)
  | fuel
  deriving DecidableEq, Repr

/-- `meta.tables[parse_table_name(table_name)]`.  `sampler.py:1116,1134,1153`. -/
def metaOf (T : Tables) (name : Str) : Except MultErr TableMeta :=
  match parseTableName name with
  | none => .error .badName
  | some k =>
    match dget T k with
    | none => .error .keyError
    | some t => .ok t

/-- The directly multiplied columns of a table (`sampler.py:1116-1123`). -/
def directColumns (cfg : MultConfig) (name : Str) (t : TableMeta) : List Str :=
  setUnion (toSet ((dget cfg.extraColumns name).getD []))
    (t.primaryKey.filter fun c => decide (c ∉ (dget cfg.ignorePk name).getD []))

/-- First loop (`sampler.py:1112-1125`). -/
def multInit (T : Tables) (cfg : MultConfig) (ignore : List Str) :
    List Str → Dict Str (List Str) → Except MultErr (Dict Str (List Str))
  | [], res => .ok res
  | n :: ns, res =>
    if n ∈ ignore then multInit T cfg ignore ns res
    else
      match metaOf T n with
      | .error e => .error e
      | .ok t => multInit T cfg ignore ns (dset res n (directColumns cfg n t))

/-- `set(fk.columns) & dst_mapped` (`sampler.py:1139-1140`). -/
def fkHit (res : Dict Str (List Str)) (fk : ForeignKey) : List Str :=
  fk.columns.filter fun c => decide (c ∈ (dget res fk.dst.str).getD [])

/-- `cols.update(...)` over the foreign keys of a table that is in `result`: the set is modified in
place (`sampler.py:1138-1140`). -/
def multFks (n : Str) : List ForeignKey → Dict Str (List Str) → Dict Str (List Str)
  | [], res => res
  | fk :: fks, res =>
    multFks n fks (dset res n (setUnion ((dget res n).getD []) (fkHit res fk)))

/-- One pass of the closure (`sampler.py:1133-1147`): the new `result` and `changes`.  The set of a
table that is not in `result` is a fresh one each time. -/
def multPass (T : Tables) (ignore : List Str) :
    List Str → Dict Str (List Str) → Bool → Except MultErr (Dict Str (List Str) × Bool)
  | [], res, ch => .ok (res, ch)
  | n :: ns, res, ch =>
    match metaOf T n with
    | .error e => .error e
    | .ok t =>
      match dget res n with
      | none =>
        let hit := t.foreignKeys.any fun fk => !(fkHit res fk).isEmpty
        if hit && decide (n ∈ ignore) then .error .passthroughFk
        else multPass T ignore ns res (ch || hit)
      | some cols =>
        let res' := multFks n t.foreignKeys res
        let cols' := (dget res' n).getD []
        if !cols'.isEmpty && decide (n ∈ ignore) then .error .passthroughFk
        else multPass T ignore ns res' (ch || decide (cols.length < cols'.length))

/-- `while True` (`sampler.py:1130-1150`). -/
def multLoop (T : Tables) (ignore names : List Str) :
    Nat → Dict Str (List Str) → Except MultErr (Dict Str (List Str))
  | 0, _ => .error .fuel
  | n + 1, res =>
    match multPass T ignore names res false with
    | .error e => .error e
    | .ok (res', ch) => if ch then multLoop T ignore names n res' else .ok res'

/-- The check that multiplied columns are integral (`sampler.py:1152-1163`). -/
def multCheck (T : Tables) (res : Dict Str (List Str)) : List Str → Except MultErr Unit
  | [] => .ok ()
  | n :: ns =>
    match metaOf T n with
    | .error e => .error e
    | .ok t =>
      match ((dget res n).getD []).find? fun c => decide (c ∉ t.columns) || decide (c ∉ t.intColumns) with
      | some c => if c ∈ t.columns then .error (.notIntegral n c) else .error .keyError
      | none => multCheck T res ns

/-- Bound on the number of passes that change something: every such pass adds a foreign key column
to the set of a table.  `sampler.py:1130-1150`. -/
def multFuel (T : Tables) : List Str → Nat
  | [] => 1
  | n :: ns =>
    (match metaOf T n with
      | .error _ => 0
      | .ok t => (t.foreignKeys.flatMap ForeignKey.columns).length) + multFuel T ns

/-- `_get_multiplied_columns` (`sampler.py:1087-1165`); `names` is `plan.queries`. -/
def multipliedColumns (T : Tables) (cfg : MultConfig) (passthrough names : List Str) :
    Except MultErr (Dict Str (List Str)) :=
  if cfg.multiplier ≤ 1 then .ok []
  else
    let ignore := passthrough ++ cfg.ignoreTables
    match multInit T cfg ignore names [] with
    | .error e => .error e
    | .ok res =>
      match multLoop T ignore names (multFuel T names) res with
      | .error e => .error e
      | .ok res' =>
        match multCheck T res' names with
        | .error e => .error e
        | .ok () => .ok res'

end Subsetter
