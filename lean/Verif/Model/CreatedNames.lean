import Verif.Model.Dest
import Verif.Model.TempNames

/-
Model of the names `create` gives to indexes and foreign keys (`/repo/subsetter/sampler.py:526-566`).  Primary keys,
unique and check constraints get no name and are named by the database.
-/
namespace Subsetter

/-- Name of the index with number `i` of a created table (`sampler.py:554`). -/
def createdIndexName (table : Str) (i : Nat) : Str := str! "idx_subsetter_" ++ table ++ '_' :: natStr i

/-- Schema and name of every index created (`sampler.py:552-566`); `objs` are the tables of the first loop of
`create`, `indexes` says how many indexes a source table has. -/
def createdIndexes (indexes : Str → Nat) : List (Str × TableMeta × Bool) → List (Str × Str)
  | [] => []
  | (_, _, false) :: rest => createdIndexes indexes rest
  | (n, t, true) :: rest =>
    (List.range (indexes n)).map (fun i => (t.schema, createdIndexName t.name i)) ++ createdIndexes indexes rest

/-- Schema and name of every foreign key created with a name (`sampler.py:541-550`); `names` are the names of the
foreign keys of a source table, `none` for those without. -/
def createdFkNames (names : Str → List (Option Str)) : List (Str × TableMeta × Bool) → List (Str × Str)
  | [] => []
  | (_, _, false) :: rest => createdFkNames names rest
  | (n, t, true) :: rest => ((names n).filterMap id).map (fun a => (t.schema, a)) ++ createdFkNames names rest

end Subsetter
