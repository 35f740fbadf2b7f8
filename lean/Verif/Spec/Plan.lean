import Verif.Model.Exec
import Mathlib.Logic.Relation

/-
Vocabulary for statements about plans and their execution.
-/
namespace Subsetter.Spec

/-- The plan contains query `q` for table `k`. -/
def Planned (p : Plan) (k : Key) (q : TableQuery) : Prop :=
  ∃ name, (name, q) ∈ p.queries ∧ parseTableName name = some k

/-- The query refers to the sampled rows of table `d`. -/
def Uses (q : TableQuery) (d : Key) : Prop := ∃ x ∈ q.refs, x.sampled = true ∧ x.key = d

/-- Table `k` of the plan needs the sampled rows of table `d`. -/
def Needs (p : Plan) (k d : Key) : Prop := ∃ q, Planned p k q ∧ Uses q d

/-- A plan that makes sense for the database with tables `T`: it is a dict whose names are
qualified names of known tables, and queries refer to known tables and to the sampled rows of
planned tables only. -/
structure PlanOK (T : Tables) (p : Plan) : Prop where
  names_nodup : (p.queries.map Prod.fst).Nodup
  known : ∀ name q, (name, q) ∈ p.queries →
    ∃ k, parseTableName name = some k ∧ (dget T k).isSome
  refs_known : ∀ k q, Planned p k q → ∀ x ∈ q.refs, (dget T x.key).isSome
  uses_planned : ∀ k d, Needs p k d → ∃ q, Planned p d q

/-- No table needs its own sampled rows, directly or indirectly. -/
def Acyclic (p : Plan) : Prop := ∀ k, ¬ Relation.TransGen (Needs p) k k

/-- What queries see if the source holds `src` and the sample of each table is `S`. -/
def sampleEnv (T : Tables) (src S : Key → List Row) : Env where
  rows := fun t => if t.sampled then S (t.schema, t.name) else src (t.schema, t.name)
  pk := fun t => ((dget T (t.schema, t.name)).map TableMeta.primaryKey).getD []

/-- `S` is the sample described by the plan: the rows of each planned table are those its query
returns when references to sampled tables see `S`. -/
def IsSample (E : Engine) (T : Tables) (src : Key → List Row) (p : Plan) (S : Key → List Row) :
    Prop :=
  ∀ k q, Planned p k q → S k = q.eval E (sampleEnv T src S)

end Subsetter.Spec
