import Verif.Model.Dest

/-
Model of merge mode: `DatabaseOutput.prepare` (`/repo/subsetter/sampler.py:422-485`).
-/
namespace Subsetter

/-- One step of an aggregate `max`, which ignores values that are not integers.
`sampler.py:422-485`. -/
def maxStep (acc : Option Int) (v : Val) : Option Int :=
  match v, acc with
  | .int v, none => some v
  | .int v, some a => some (if a < v then v else a)
  | _, acc => acc

/-- `SELECT max(col)` (`sampler.py:458-459`). -/
def colMax (rows : List Row) (c : Str) : Option Int := rows.foldl (fun acc r => maxStep acc (r.get c)) none

/-- First loop of `prepare` (`sampler.py:434-463`): `pk_max_values` and `table_offsets`.  `T` are the
loaded destination tables and `S` their contents. -/
def prepareMax (remap : Str → Str) (T : Tables) (S : DbState) (pass : List Str) :
    List Str → Dict Str (Option Int) → Dict Key (Dict Str Int) →
    Except DestErr (Dict Str (Option Int) × Dict Key (Dict Str Int))
  | [], pm, off => .ok (pm, off)
  | n :: ns, pm, off =>
    if n ∈ pass then prepareMax remap T S pass ns pm off
    else
      match parseTableName n with
      | none => .error .badName
      | some k0 =>
        match remapTable remap k0 with
        | none => .error .badName
        | some k =>
          match dget T k with
          | none => .error .keyError
          | some t =>
            match t.primaryKey with
            | [c] =>
              if c ∈ t.intColumns then
                match colMax (S k) c with
                | none => prepareMax remap T S pass ns (dset pm n none) (dset off k [])
                | some m => prepareMax remap T S pass ns (dset pm n (some m)) (dset off k [(c, m + 1)])
              else prepareMax remap T S pass ns pm (dset off k [])
            | _ => prepareMax remap T S pass ns pm (dset off k [])

/-- Inner part of the second loop (`sampler.py:469-485`): the offsets of one table. -/
def fkOffsets (src : Tables) (pm : Dict Str (Option Int)) :
    List ForeignKey → Dict Str Int → Except DestErr (Dict Str Int)
  | [], d => .ok d
  | fk :: fks, d =>
    match fk.columns with
    | [c] =>
      match dget src fk.dst with
      | none => .error .keyError
      | some p =>
        if fk.dstColumns ≠ p.primaryKey then fkOffsets src pm fks d
        else
          match dget pm fk.dst.str with
          | some (some m) => fkOffsets src pm fks (dset d c (m + 1))
          | _ => fkOffsets src pm fks d
    | _ => fkOffsets src pm fks d

/-- Second loop (`sampler.py:465-485`).  The entry of the table exists because of the first loop. -/
def prepareFks (remap : Str → Str) (src : Tables) (pm : Dict Str (Option Int)) (pass : List Str) :
    List Str → Dict Key (Dict Str Int) → Except DestErr (Dict Key (Dict Str Int))
  | [], off => .ok off
  | n :: ns, off =>
    if n ∈ pass then prepareFks remap src pm pass ns off
    else
      match parseTableName n with
      | none => .error .badName
      | some k0 =>
        match dget src k0 with
        | none => .error .keyError
        | some t =>
          match remapTable remap k0 with
          | none => .error .badName
          | some k =>
            match fkOffsets src pm t.foreignKeys ((dget off k).getD []) with
            | .error e => .error e
            | .ok d => prepareFks remap src pm pass ns (dset off k d)

/-- `prepare` in merge mode: `table_offsets`.  `src` is the metadata of the source as used for sampling.
`sampler.py:422-485`. -/
def prepare (remap : Str → Str) (src T : Tables) (S : DbState) (pass planned : List Str) :
    Except DestErr (Dict Key (Dict Str Int)) :=
  match prepareMax remap T S pass planned [] [] with
  | .error e => .error e
  | .ok (pm, off) => prepareFks remap src pm pass planned off

/-- `self.table_offsets.get((schema, table_name))` (`sampler.py:644`). -/
def offsetsOf (offs : Dict Key (Dict Str Int)) (k : Key) : Dict Str Int := (dget offs k).getD []

end Subsetter
