import Verif.Model.SqlRun
import Verif.Spec.Build
import Verif.Spec.Compact

/-
Plans and databases for which the statements built do what the plan says.
-/
namespace Subsetter.Spec
open Subsetter

/-- The table exists and has the column. -/
def HasCol (T : Tables) (t : TableId) (c : Str) : Prop := ∃ m, dget T (t.schema, t.name) = some m ∧ c ∈ m.columns

mutual
/-- Every column named exists, and rows come from the source: sampled tables are used in joins only. -/
def WherePlain (T : Tables) (t : TableId) : Where → Prop
  | .op _ c _ => HasCol T t c
  | .inVals cs _ _ => ∀ c ∈ cs, HasCol T t c
  | .inStmt cs st _ => (∀ c ∈ cs, HasCol T t c) ∧ StmtPlain T st
  | .and cs => WheresPlain T t cs
  | .or cs => WheresPlain T t cs
  | _ => True
def WheresPlain (T : Tables) (t : TableId) : List Where → Prop
  | [] => True
  | c :: cs => WherePlain T t c ∧ WheresPlain T t cs
def SelPlain (T : Tables) : Sel → Prop
  | .mk cols t none _ joins _ _ =>
    t.sampled = false ∧ (∀ c ∈ cols.getD [], HasCol T t c) ∧
    ∀ j ∈ joins.getD [], (∀ c ∈ j.leftColumns, HasCol T t c) ∧ ∀ c ∈ j.rightColumns, HasCol T j.right c
  | .mk cols t (some w) _ joins _ _ =>
    t.sampled = false ∧ (∀ c ∈ cols.getD [], HasCol T t c) ∧
    (∀ j ∈ joins.getD [], (∀ c ∈ j.leftColumns, HasCol T t c) ∧ ∀ c ∈ j.rightColumns, HasCol T j.right c) ∧
    WherePlain T t w
def SelsPlain (T : Tables) : List Sel → Prop
  | [] => True
  | x :: xs => SelPlain T x ∧ SelsPlain T xs
def StmtPlain (T : Tables) : Stmt → Prop
  | .select x => SelPlain T x
  | .union xs => SelsPlain T xs
end

/-- The select returns whole rows of the table `k` of the source. -/
def OwnRows (k : Key) : Sel → Prop
  | .mk cols t _ _ _ _ _ => (cols = none ∨ cols = some []) ∧ t = ⟨k.1, k.2, false⟩

/-- The statement returns whole rows of the table `k` of the source. -/
def WholeRows (k : Key) : Stmt → Prop
  | .select x => OwnRows k x
  | .union xs => xs ≠ [] ∧ ∀ x ∈ xs, OwnRows k x

/-- The query of a table `k` can be built and returns whole rows of it. -/
def QueryPlain (T : Tables) (k : Key) (q : TableQuery) : Prop :=
  ∃ st, q = .statement st ∧ StmtPlain T st ∧ StmtFits st ∧ WholeRows k st

/-- All queries of the plan can be built and return whole rows of their tables. -/
def PlanPlain (T : Tables) (p : Plan) : Prop :=
  ∀ n q, (n, q) ∈ p.queries → ∃ k, parseTableName n = some k ∧ QueryPlain T k q

/-- A source whose rows have the columns of their tables, none of which is named like the one added for compaction. -/
structure SourcePlain (T : Tables) (src : Key → List Row) : Prop where
  columns : ∀ k t, dget T k = some t → t.columns.Nodup ∧ str! "_sbsttr_id" ∉ t.columns ∧ ∀ c ∈ t.primaryKey, c ∈ t.columns
  refs : ∀ k t, dget T k = some t → ∀ fk ∈ t.foreignKeys, ∀ m, dget T (fk.dstSchema, fk.dstTable) = some m →
    ∀ c ∈ fk.dstColumns, c ∈ m.columns
  rows : ∀ k t, dget T k = some t → ∀ r ∈ src k, r.map Prod.fst = t.columns

/-- Values of compacted columns that tables with compacted columns of their own refer to occur once in a sample. -/
def RefsUnique (E : Engine) (T : Tables) (src : Key → List Row) (compact : Dict Key (List Str)) (p : Plan) : Prop :=
  ∀ k q, Planned p k q → (dget compact k).isSome → ∀ c d dc, PointsTo T compact k c d dc → ∀ q', Planned p d q' →
    ∀ S, IsSample E T src p S → UniqueIn (S d) dc

/-- Plan and source of a run that has been started: the plan makes sense for the tables loaded. -/
structure RunPlain {σ : Type} (C : RunConfig) (D : Setting σ) (p : Plan) (r : Started) : Prop where
  names : (dkeys p.queries).Nodup
  plan : PlanPlain r.tables p
  source : SourcePlain r.tables D.src
  unique : ∀ compact, getCompactColumns r.tables p.passthrough C.compact = .ok compact → PlanOK r.tables p →
    RefsUnique D.engine r.tables D.src compact p

/-- What the source must satisfy: rows have the columns of their table, columns of keys exist and no column is named
like the one the sampler adds. -/
structure SourceSound {σ : Type} (D : Setting σ) : Prop where
  rows : ∀ n t, (n, t) ∈ D.srcDb → ∀ r ∈ D.src (t.schema, t.name), r.map Prod.fst = t.columns
  name : ∀ n t, (n, t) ∈ D.srcDb → str! "_sbsttr_id" ∉ t.columns
  pkColumns : ∀ n t, (n, t) ∈ D.srcDb → ∀ c ∈ t.primaryKey, c ∈ t.columns
  fkColumns : ∀ n t, (n, t) ∈ D.srcDb → ∀ fk ∈ t.foreignKeys, (∀ c ∈ fk.columns, c ∈ t.columns) ∧ ∀ tb,
    (fk.dstSchema ++ '.' :: fk.dstTable, tb) ∈ D.srcDb → ∀ c ∈ fk.dstColumns, c ∈ tb.columns

/-- The columns that the targets name in `like` and `in` exist. -/
def TargetColumns (cfg : PlannerConfig) (db : Dict Str TableMeta) : Prop :=
  ∀ n x, (n, x) ∈ cfg.targets → ∀ c, c ∈ dkeys x.like ∨ c ∈ dkeys x.in_ → ∀ t, (n, t) ∈ db → c ∈ t.columns

/-- Columns compacted by name are the primary key of their table, or no foreign key leads to them. -/
def CompactsKeys {σ : Type} (C : RunConfig) (D : Setting σ) : Prop :=
  ∀ n cols, (n, cols) ∈ C.compact.columns → ∀ c ∈ cols, ∀ t, (n, t) ∈ D.srcDb → t.primaryKey = [c] ∨
    (C.infer = .none ∧ ∀ n' t', (n', t') ∈ D.srcDb → ∀ fk ∈ t'.foreignKeys,
      fk.dstSchema ++ '.' :: fk.dstTable = n → c ∉ fk.dstColumns)

end Subsetter.Spec
