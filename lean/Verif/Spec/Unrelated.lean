import Verif.Spec.Run

/-
Vocabulary for databases with further tables that have nothing to do with a run.
-/
namespace Subsetter.Spec

/-- The table is selected, or needed because of a selected one. -/
def Relevant (fnmatch : Str → Str → Bool) (db : Dict Str TableMeta) (select : List Str) (fwd bwd : Bool) (k : Key) : Prop :=
  ∃ s, Selected fnmatch db select s ∧ Relation.ReflTransGen (Pulls db fwd bwd) s k

/-- `db'` has all tables of `db`, in the same order, and others that are not selected and, where that counts, do not
refer to relevant tables.  Relevant tables are all in `db`. -/
structure Beside (fnmatch : Str → Str → Bool) (select : List Str) (fwd bwd : Bool) (db db' : Dict Str TableMeta) : Prop where
  sub : db.Sublist db'
  unselected : ∀ e ∈ db', e ∉ db → ∀ pat ∈ select, fnmatch e.1 pat = false
  unrelated : bwd = true → ∀ e ∈ db', e ∉ db → ∀ fk ∈ e.2.foreignKeys, ¬ Relevant fnmatch db select fwd bwd (fk.dstSchema, fk.dstTable)
  complete : ∀ k, Relevant fnmatch db select fwd bwd k → InDb db k

variable {σ : Type}

/-- `db'` is the source with further tables whose names match no planned one. -/
structure BesideSource (D : Setting σ) (p : Plan) (db' : Dict Str TableMeta) : Prop where
  sub : D.srcDb.Sublist db'
  ok : DbOK db'
  unmatched : ∀ e ∈ db', e ∉ D.srcDb → ∀ n ∈ dkeys p.queries, D.fnmatch e.1 n = false

/-- `db'` is the destination with further tables that are not destinations of planned tables, and do not refer to
tables the run reaches. -/
structure BesideDest (C : RunConfig) (D : Setting σ) (p : Plan) (db' : Dict Str TableMeta) : Prop where
  sub : D.dstDb.Sublist db'
  ok : DbOK db'
  unmatched : ∀ e ∈ db', e ∉ D.dstDb → ∀ n ∈ dkeys p.queries, ∀ d, DestOf C.remap n d →
    e.1 ≠ d.1 ++ '.' :: d.2 ∧ D.fnmatch e.1 (d.1 ++ '.' :: d.2) = false
  unrelated : ∀ e ∈ db', e ∉ D.dstDb → ∀ fk ∈ e.2.foreignKeys, ¬ Reached C D p (fk.dstSchema, fk.dstTable)

end Subsetter.Spec
