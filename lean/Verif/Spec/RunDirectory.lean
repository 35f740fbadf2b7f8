import Verif.Model.RunDirectory
import Verif.Spec.Run

/-
Vocabulary for a run that writes files.
-/
namespace Subsetter.Spec
open Subsetter

variable {σ : Type}

/-- The reflected source is well formed, plan and configuration are dicts. -/
structure ReadOK (C : RunConfig) (D : Setting σ) (p : Plan) : Prop where
  src : DbOK D.srcDb
  srcColumns : ∀ n t, (n, t) ∈ D.srcDb → t.columns.Nodup
  plan : (dkeys p.queries).Nodup
  compactNames : (dkeys C.compact.columns).Nodup

/-- The file of a table: `schema.table.json`. -/
def fileOf (n : Str) : Str := n ++ str! ".json"

/-- What the run derives from its configuration: `T` are tables of the source, possibly with inferred foreign keys,
and for them the multiplied and the compacted columns.  `Smp` is the sample and `ids` are the identifiers of its rows. -/
structure Reading (C : RunConfig) (D : Setting σ) (p : Plan) (T : Tables) (mult : Dict Str (List Str))
    (compact : Dict Key (List Str)) (Smp : Key → List Row) (ids : Key → List Int) : Prop where
  source : ∀ k t, dget T k = some t → ∃ t0, (k.1 ++ '.' :: k.2, t0) ∈ D.srcDb ∧
    t = { t0 with foreignKeys := t.foreignKeys } ∧ (C.infer = .none → t = t0)
  known : ∀ n ∈ dkeys p.queries, ∃ k, parseTableName n = some k ∧ (dget T k).isSome
  mult : ∀ n c, c ∈ (dget mult n).getD [] ↔ 1 < C.mult.multiplier ∧
    MultCol T C.mult (p.passthrough ++ C.mult.ignoreTables) (dkeys p.queries) n c
  compact : ∀ k c, IsCompacted compact k c ↔
    NamedColumn T p.passthrough C.compact k c ∨ KeyColumn T p.passthrough C.compact k c
  sample : IsSample D.engine (dbTables D.srcDb) D.src p Smp
  ids : ∀ k, (ids k).length = (Smp k).length ∧ FillsFrom C.compact.startKey (ids k)

/-- `lines` are the first lines for table `n`, all of them if `full`.  `rows` are its sampled rows with compacted
identifiers, provided the columns looked up have no value twice; they pass through the filters and are multiplied, and
every line has the columns that are left, in order. -/
def Lines (C : RunConfig) (D : Setting σ) (p : Plan) (T : Tables) (mult : Dict Str (List Str))
    (compact : Dict Key (List Str)) (Smp : Key → List Row) (ids : Key → List Int) (n : Str) (k : Key) (t : TableMeta)
    (full : Bool) (lines : List Row) : Prop :=
  ∃ ch rows s, constructFilter D.world t.columns ((dget C.filters n).getD []) = .ok ch ∧
    ((∀ c d dc, PointsTo T compact k c d dc → ¬ IsCompacted compact k c → UniqueIn (Smp d) dc) →
      List.Forall₂ (fun x out => CompactedRow T compact Smp ids k t.columns x.2 x.1 out) ((ids k).zip (Smp k)) rows) ∧
    (full = true → lines.length = rows.length * timesWritten C p n) ∧
    FirstCopies (fun r i s (line : Row) s' => ∃ out, IsCopy D.world ch ch.colsOut ((dget mult n).getD [])
      (timesWritten C p n) [] r i s out s' ∧ line.map Prod.fst = ch.colsOut ∧ line.map Prod.snd = out)
      (timesWritten C p n) (rows.map fun r => t.columns.map r.get) s lines

/-- The files `F'` after the tables `done` were written: the first of the tables `todo` may have some of its lines, all
other files are as before. -/
structure Written (C : RunConfig) (D : Setting σ) (p : Plan) (T : Tables) (mult : Dict Str (List Str))
    (compact : Dict Key (List Str)) (Smp : Key → List Row) (ids : Key → List Int) (F F' : Files) (done todo : List Str) :
    Prop where
  names : dkeys p.queries = done ++ todo
  full : ∀ n ∈ done, ∀ k t, parseTableName n = some k → (n, t) ∈ D.srcDb →
    ∃ lines, F' (fileOf n) = some lines ∧ Lines C D p T mult compact Smp ids n k t true lines
  part : ∀ n, todo.head? = some n → F' (fileOf n) = F (fileOf n) ∨
    ∀ k t, parseTableName n = some k → (n, t) ∈ D.srcDb →
      ∃ lines, F' (fileOf n) = some lines ∧ Lines C D p T mult compact Smp ids n k t false lines
  others : ∀ f, (∀ n ∈ done, f ≠ fileOf n) → (∀ n, todo.head? = some n → f ≠ fileOf n) → F' f = F f

end Subsetter.Spec
