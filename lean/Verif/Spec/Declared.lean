import Verif.Spec.RunRefs

/-
Foreign keys that are inferred, as if they were declared.
-/
namespace Subsetter.Spec
open Subsetter

/-- `t'` is the table `t`, known as `a`, with the keys declared that are inferred from the tables `T`, after its own and in
the order of its columns. -/
def WithInferred (mode : InferMode) (T : Tables) (a : Key) (t t' : TableMeta) : Prop :=
  ∃ new : List ForeignKey, t' = { t with foreignKeys := t.foreignKeys ++ new } ∧
    (new.flatMap fun fk => fk.columns).Sublist t.columns ∧
    ∀ fk, fk ∈ new ↔ fk ∉ t.foreignKeys ∧ ∃ b e, InferMode.everywhere mode = some e ∧ Inferred T e a fk b

/-- Those tables of a database whose names match one of the patterns. -/
def matching (fnmatch : Str → Str → Bool) (db : Dict Str TableMeta) (pats : List Str) : Dict Str TableMeta :=
  db.filter fun e => pats.any fun pat => fnmatch e.1 pat

/-- The database `db'` is `db` with the keys declared that are inferred from the tables matching `pats`; other tables
are the same. -/
def Declares (fnmatch : Str → Str → Bool) (mode : InferMode) (pats : List Str) (db db' : Dict Str TableMeta) : Prop :=
  List.Forall₂ (fun e e' => e'.1 = e.1 ∧
    ((∃ pat ∈ pats, fnmatch e.1 pat = true) →
      WithInferred mode (dbTables (matching fnmatch db pats)) (e.2.schema, e.2.name) e.2 e'.2) ∧
    ((∀ pat ∈ pats, fnmatch e.1 pat = false) → e'.2 = e.2)) db db'

variable {σ : Type}

/-- The planned tables `n` and `nb`, which are `k` and `kb` in the source, are copied to `kd` and `kdb`, and `fk` is a
foreign key of the first to the second the planner used.  It holds in the source and of what the run leaves in the
destination, its columns are copied as they are, and rows of the second table do not lose the columns referred to. -/
structure Carried (C : RunConfig) (D : Setting σ) (cfg : PlannerConfig) (T : Tables) (p : Plan) (S : DbState)
    (schema : Dict Str TableMeta) (n : Str) (k kd : Key) (t td : TableMeta) (nb : Str) (kb kdb : Key) (tb tdb : TableMeta)
    (fk : ForeignKey) : Prop where
  child : Copied C D p schema n k kd t td
  parent : Copied C D p schema nb kb kdb tb tdb
  used : UsedFk cfg T k fk kb
  source : ∀ r ∈ D.src k, (∀ c ∈ fk.columns, r.get c ≠ .null) → ∃ m ∈ D.src kb, Refers fk.columns fk.dstColumns r m
  before : C.truncate = false → ∀ r ∈ S kd, (∀ c ∈ fk.columns, r.get c ≠ .null) →
    ∃ m ∈ S kdb, Refers fk.columns fk.dstColumns r m
  kept : ∀ c ∈ fk.columns, KeptColumn C D n t kd td c
  keptDst : ∀ c ∈ fk.dstColumns, KeptColumn C D nb tb kdb tdb c
  stable : strategyFor C p nb = .error ∨ tdb.primaryKey = [] ∨ ∀ c ∈ fk.dstColumns, c ∈ tdb.primaryKey
  rows : TableHolds (target D kd td) (S kd)
  rowsDst : TableHolds (target D kdb tdb) (S kdb)

end Subsetter.Spec
