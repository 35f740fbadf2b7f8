import Verif.Model.Planner
import Verif.Spec.Plan
import Verif.Spec.Sql

/-
Vocabulary for statements about planning.
-/
namespace Subsetter.Spec

/-- Tables as loaded from a database: a dict keyed by (schema, name), no schema name contains a dot,
foreign keys pair up columns, reverse keys are not computed yet. -/
structure TablesOK (T : Tables) : Prop where
  keys_nodup : (T.map Prod.fst).Nodup
  key_eq : ∀ k t, (k, t) ∈ T → (t.schema, t.name) = k
  no_dot : ∀ k t, (k, t) ∈ T → '.' ∉ k.1
  no_rev : ∀ k t, (k, t) ∈ T → t.revForeignKeys = []
  fk_cols : ∀ k t, (k, t) ∈ T → ∀ fk ∈ t.foreignKeys,
    fk.columns.length = fk.dstColumns.length ∧ fk.columns ≠ []

/-- Table `a` has the foreign key `fk`, which refers to table `b`. -/
def HasFk (T : Tables) (a : Key) (fk : ForeignKey) (b : Key) : Prop :=
  ∃ t, (a, t) ∈ T ∧ fk ∈ t.foreignKeys ∧ (fk.dstSchema, fk.dstTable) = b

/-- Table `a` refers to table `b`. -/
def Ref (T : Tables) (a b : Key) : Prop := ∃ fk, HasFk T a fk b

/-- No two rows agree on all primary key columns. -/
def PkOK (T : Tables) (src : Key → List Row) : Prop :=
  ∀ k t, dget T k = some t → t.primaryKey ≠ [] →
    ((src k).map fun r => t.primaryKey.map r.get).Nodup

/-- Unique constraints hold: no two rows agree on all columns of one without a NULL among them. -/
def UniqueOK (T : Tables) (src : Key → List Row) : Prop :=
  ∀ k t, dget T k = some t → ∀ u ∈ t.uniques, (src k).Pairwise fun r r' =>
    (∀ c ∈ u, r.get c ≠ .null) → u.map r.get ≠ u.map r'.get

/-- Every foreign-key reference of a sampled row of `a` that resolves in the source resolves in the
sample. -/
def FkKept (src S : Key → List Row) (a : Key) (fk : ForeignKey) (b : Key) : Prop :=
  ∀ r ∈ S a, (∃ m ∈ src b, Refers fk.columns fk.dstColumns r m) →
    ∃ m ∈ S b, Refers fk.columns fk.dstColumns r m

/-- The target filter accepts the row at position `i` (`config_model.py:15-21`): every given option
holds. -/
structure TargetAccepts (E : Engine) (k : Key) (x : TargetConfig) (i : Nat) (r : Row) : Prop where
  percent : ∀ p, x.percent = some p → E.below (p / 100) ⟨k.1, k.2, false⟩ 0 i = true
  sql : ∀ s, x.sql = some s → E.sql s ⟨k.1, k.2, false⟩ r = some true
  like : ∀ c pats, (c, pats) ∈ x.like → ∀ pat ∈ pats, E.op .like (r.get c) (.str pat) = some true
  in_ : ∀ c vs, (c, vs) ∈ x.in_ → r.get c ≠ .null ∧ r.get c ∈ vs

open Classical in
/-- The rows chosen by the options of a target: all rows for `all`, else those the filter accepts;
`amount` random ones of these if an amount is given. -/
noncomputable def targetRows (E : Engine) (src : Key → List Row) (k : Key) (x : TargetConfig) :
    List Row :=
  let rows := ((src k).zipIdx.filter fun p =>
    decide (x.all = true ∨ TargetAccepts E k x p.2 p.1)).map Prod.fst
  match x.amount with
  | none => rows
  | some n => (E.shuffle ⟨k.1, k.2, false⟩ 0 rows).take n

/-- The row satisfies the configured constraints. -/
def MeetsConstraints (E : Engine) (cs : List ColumnConstraint) (r : Row) : Prop :=
  ∀ c ∈ cs, E.op c.operator (r.get c.column) c.value = some true

/-- `b` is the only table (of the schema of `a`, or of all tables if `everywhere`) whose primary
key is the single column `c`. -/
def OnlyPk (T : Tables) (everywhere : Bool) (a : Key) (c : Str) (b : Key) : Prop :=
  ∀ b', (∃ t, (b', t) ∈ T ∧ t.primaryKey = [c] ∧ (everywhere = false → b'.1 = a.1)) ↔ b' = b

/-- `fk` is a key the inference adds to table `a` (documentation of `infer_foreign_keys`). -/
def Inferred (T : Tables) (everywhere : Bool) (a : Key) (fk : ForeignKey) (b : Key) : Prop :=
  ∃ t c, (a, t) ∈ T ∧ c ∈ t.columns ∧ fk = ⟨[c], b.1, b.2, [c]⟩ ∧ b ≠ a ∧
    OnlyPk T everywhere a c b

/-- An entry of `ignore_fks` names tables `a` and `b`. -/
def IgnoredFk (cfg : PlannerConfig) (a b : Key) : Prop :=
  ∃ x ∈ cfg.ignoreFks, parseTableName x.1 = some a ∧ parseTableName x.2 = some b

/-- `fk` is the key of a valid entry of `extra_fks`. -/
def ExtraKey (cfg : PlannerConfig) (T : Tables) (a : Key) (fk : ForeignKey) (b : Key) : Prop :=
  ∃ x ∈ cfg.extraFks, parseTableName x.srcTable = some a ∧ parseTableName x.dstTable = some b ∧
    (∃ t, (a, t) ∈ T ∧ ∀ c ∈ x.srcColumns, c ∈ t.columns) ∧
    (∃ t, (b, t) ∈ T ∧ ∀ c ∈ x.dstColumns, c ∈ t.columns) ∧
    fk = ⟨x.srcColumns, b.1, b.2, x.dstColumns⟩

/-- Whether foreign keys are inferred, and from which tables. -/
def InferMode.everywhere : InferMode → Option Bool
  | .none => Option.none
  | .schema => some false
  | .all => some true

/-- The foreign keys the planner is to use: those of the database and those inferred, without the
ignored ones, and those added. -/
def UsedFk (cfg : PlannerConfig) (T : Tables) (a : Key) (fk : ForeignKey) (b : Key) : Prop :=
  ((HasFk T a fk b ∨ ∃ e, InferMode.everywhere cfg.infer = some e ∧ Inferred T e a fk b) ∧
    ¬ IgnoredFk cfg a b) ∨
  ExtraKey cfg T a fk b

/-- A reflected database: a dict from qualified name to table; no schema name contains a dot;
foreign keys pair up columns. -/
structure DbOK (db : Dict Str TableMeta) : Prop where
  names_nodup : (db.map Prod.fst).Nodup
  name_eq : ∀ n t, (n, t) ∈ db → n = t.schema ++ '.' :: t.name
  no_dot : ∀ n t, (n, t) ∈ db → '.' ∉ t.schema
  no_rev : ∀ n t, (n, t) ∈ db → t.revForeignKeys = []
  fk_cols : ∀ n t, (n, t) ∈ db → ∀ fk ∈ t.foreignKeys,
    fk.columns.length = fk.dstColumns.length ∧ fk.columns ≠ [] ∧ '.' ∉ fk.dstSchema

/-- Table `a` of the database refers to table `b`. -/
def DbRef (db : Dict Str TableMeta) (a b : Key) : Prop :=
  ∃ n t fk, (n, t) ∈ db ∧ (t.schema, t.name) = a ∧ fk ∈ t.foreignKeys ∧
    (fk.dstSchema, fk.dstTable) = b

/-- The table is part of the database. -/
def InDb (db : Dict Str TableMeta) (k : Key) : Prop :=
  ∃ n t, (n, t) ∈ db ∧ (t.schema, t.name) = k

/-- Foreign keys refer to tables of the database. -/
def DbClosed (db : Dict Str TableMeta) : Prop := ∀ a b, DbRef db a b → InDb db b

/-- The table matches a pattern of the selection. -/
def Selected (fnmatch : Str → Str → Bool) (db : Dict Str TableMeta) (select : List Str) (k : Key) :
    Prop :=
  ∃ n t, (n, t) ∈ db ∧ (t.schema, t.name) = k ∧ ∃ pat ∈ select, fnmatch n pat = true

/-- Table `b` is to be included because of `a`: `a` refers to it (if `fwd`) or it refers to `a`
(if `bwd`). -/
def Pulls (db : Dict Str TableMeta) (fwd bwd : Bool) (a b : Key) : Prop :=
  (fwd = true ∧ DbRef db a b) ∨ (bwd = true ∧ DbRef db b a)

/-- Table `a` refers to table `b` by a key the planner is to use. -/
def UsedRef (cfg : PlannerConfig) (T : Tables) (a b : Key) : Prop := ∃ fk, UsedFk cfg T a fk b

/-- Names of the configuration naming table `k`. -/
def Named (names : List Str) (k : Key) : Prop := ∃ n ∈ names, parseTableName n = some k

/-- Why the planner refuses: the cause of each documented error, for given ignored tables,
passthrough tables, tables and references `R`.  Internal errors have no cause. -/
def Cause (cfg : PlannerConfig) (ign pass : List Key) (T : Tables) (R : Key → Key → Prop) :
    PlanErr → Prop
  | .badName => False
  | .unselectedTarget s => s ∈ dkeys cfg.targets ∧
      ∀ k, (dget T k).isSome → k.str = s → k ∈ pass ∨ k ∈ ign
  | .cycle c => ∃ k, k.str ∈ c ∧ Relation.TransGen R k k ∧ k ∉ pass ∧ k ∉ ign
  | .ignoredFk a b => cfg.includeDependencies = true ∧ R a b ∧ a ∉ ign ∧ b ∈ ign
  | .passthroughFk a b => a ∈ pass ∧ R a b ∧ b ∉ pass
  | .constraintReverse a => (dget cfg.tableConstraints a.str).getD [] ≠ [] ∧ ∃ b, R b a
  | .constraintColumn a c => ∃ t, (a, t) ∈ T ∧ c ∉ t.columns ∧
      ∃ con ∈ (dget cfg.tableConstraints a.str).getD [], con.column = c
  | .keyError => False
  | .assertion => False
  | .index => False
  | .fuel => False

/-- The plan lists table `a` before table `k`, and `a` is not a passthrough table. -/
def Earlier (p : Plan) (a k : Key) : Prop :=
  ∃ l₁ l₂, p.queries.map Prod.fst = l₁ ++ k.str :: l₂ ∧ a.str ∈ l₁ ∧ a.str ∉ p.passthrough

/-- Input of the planner: loaded tables and a validated configuration. -/
structure Input (cfg : PlannerConfig) (T : Tables) : Prop where
  tables : TablesOK T
  extra : ∀ x ∈ cfg.extraFks, x.Valid
  named : [] ∉ dkeys cfg.targets

end Subsetter.Spec
