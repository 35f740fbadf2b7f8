import Verif.Spec.Filters
import Verif.Spec.Planner
import Verif.Model.Run

/-
Vocabulary for what a run reveals.
-/
namespace Subsetter.Spec
open Subsetter

/-- The rows have the same columns and the same values except in the columns `h`. -/
def SameShown (h : List Str) (r r' : Row) : Prop :=
  List.Forall₂ (fun e e' => e.1 = e'.1 ∧ (e.1 ∉ h → e.2 = e'.2)) r r'

/-- The sources have the same rows except for the values of the columns `hid`. -/
def SameOutside (hid : Key → List Str) (src src' : Key → List Row) : Prop :=
  ∀ k, List.Forall₂ (SameShown (hid k)) (src k) (src' k)

/-- Neither keys nor options of planner and sampler refer to the columns `hid`, and tables with such columns have a
primary key. -/
structure Unread (cfg : PlannerConfig) (infer : InferMode) (db : Dict Str TableMeta) (hid : Key → List Str) : Prop where
  keyed : ∀ n t, (n, t) ∈ db → hid (t.schema, t.name) ≠ [] → t.primaryKey ≠ []
  pk : ∀ n t, (n, t) ∈ db → ∀ c ∈ t.primaryKey, c ∉ hid (t.schema, t.name)
  fk : ∀ n t, (n, t) ∈ db → ∀ fk ∈ t.foreignKeys, (∀ c ∈ fk.columns, c ∉ hid (t.schema, t.name)) ∧
    ∀ c ∈ fk.dstColumns, c ∉ hid (fk.dstSchema, fk.dstTable)
  extraFk : ∀ x ∈ cfg.extraFks, (∀ k, parseTableName x.srcTable = some k → ∀ c ∈ x.srcColumns, c ∉ hid k) ∧
    ∀ k, parseTableName x.dstTable = some k → ∀ c ∈ x.dstColumns, c ∉ hid k
  inferred : cfg.infer ≠ .none ∨ infer ≠ .none → ∀ n t, (n, t) ∈ db → ∀ c, t.primaryKey = [c] → ∀ k, c ∉ hid k
  constraint : ∀ k cs, (k.1 ++ '.' :: k.2, cs) ∈ cfg.tableConstraints → ∀ x ∈ cs, x.column ∉ hid k
  target : ∀ k x, (k.1 ++ '.' :: k.2, x) ∈ cfg.targets → ∀ c, c ∈ dkeys x.like ∨ c ∈ dkeys x.in_ → c ∉ hid k

/-- The engine does not look at the columns `hid` where it need not: `ORDER BY random()` orders by chance only, and
raw SQL of targets does not refer to them. -/
structure Blind (E : Engine) (cfg : PlannerConfig) (hid : Key → List Str) : Prop where
  shuffle : ∀ t g l l', List.Forall₂ (SameShown (hid t.key)) l l' →
    List.Forall₂ (SameShown (hid t.key)) (E.shuffle t g l) (E.shuffle t g l')
  sql : ∀ k x, (k.1 ++ '.' :: k.2, x) ∈ cfg.targets → ∀ text, x.sql = some text → ∀ r r', SameShown (hid k) r r' →
    E.sql text ⟨k.1, k.2, false⟩ r = E.sql text ⟨k.1, k.2, false⟩ r'

/-- A filter removes the column or replaces its values, and no filter before looks at it. -/
def Scrubbed (fs : List (FilterCfg Val)) (c : Str) : Prop :=
  ∃ pre f post, fs = pre ++ f :: post ∧ (∀ g ∈ pre, c ∉ FilterCfg.reads g) ∧ FilterCfg.Scrubs f c

end Subsetter.Spec
