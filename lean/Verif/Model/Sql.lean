import Verif.Model.PlanModel
import Verif.Model.Py
import Mathlib.Data.List.Basic
import Mathlib.Data.List.Perm.Basic

/-
Denotation of the SQL produced by the `build` methods of `/repo/subsetter/plan_model.py`:
`eval` gives the rows the generated statement returns.  SQLAlchemy's text generation and the
database engine are replaced by this semantics.
-/
namespace Subsetter

/-- A row: column name to value, in column order.  `plan_model.py:253-314`. -/
abbrev Row := Dict Str Val

instance : DecidableEq Row := inferInstanceAs (DecidableEq (List (Str × Val)))

/-- `table.c[col]` for a row.  A column the table does not have is a `KeyError` while building the
statement in Python; here it reads as NULL.  `plan_model.py:61,89,258,274,283`. -/
def Row.get (r : Row) (c : Str) : Val := (dget r c).getD .null

/-- The tables a statement can see: source tables (`sampled = false`) and temporary tables
(`sampled = true`), with the primary key columns of the table object.  `metadata.py:213-223`. -/
structure Env where
  rows : TableId → List Row
  pk : TableId → List Str

/-- What the database engine decides and the model leaves open.
`plan_model.py:67-73,193,211,299,312`. -/
structure Engine where
  /-- `column <op> literal` -/
  op : Op → Val → Val → Option Bool
  /-- a raw SQL condition of the given text, on a row of the given table -/
  sql : Str → TableId → Row → Option Bool
  /-- the rows of a raw SQL query -/
  query : Str → List Row
  /-- `random() < threshold` for clause `tag` on the row at the given position.  That it is false for thresholds up to 0
  and true from 1 on holds where `random()` is between 0 and 1 (PostgreSQL, MySQL).  On SQLite, where it is an integer, it
  does not, but planned queries have only thresholds between 0 and 1 (`c70_thresholds`). -/
  below : Rat → TableId → Nat → Nat → Bool
  below_zero : ∀ thr t g i, thr ≤ 0 → below thr t g i = false
  below_one : ∀ thr t g i, 1 ≤ thr → below thr t g i = true
  /-- `ORDER BY random()` of select `tag` -/
  shuffle : TableId → Nat → List Row → List Row
  shuffle_perm : ∀ t g l, (shuffle t g l).Perm l

/-- SQL three-valued conjunction; NULL is `none`.  `plan_model.py:118,272,305`. -/
def and3 : Option Bool → Option Bool → Option Bool
  | some false, _ => some false
  | _, some false => some false
  | some true, some true => some true
  | _, _ => none

/-- SQL three-valued disjunction.  `plan_model.py:156,303`. -/
def or3 : Option Bool → Option Bool → Option Bool
  | some true, _ => some true
  | _, some true => some true
  | some false, some false => some false
  | _, _ => none

/-- SQL NOT.  `plan_model.py:73,95`. -/
def not3 : Option Bool → Option Bool := Option.map (!·)

/-- `sa.and_(*cs)`, `sa.true()` if empty (`plan_model.py:115-118`). -/
def all3 (l : List (Option Bool)) : Option Bool := l.foldr and3 (some true)
/-- `sa.or_(*cs)`, `sa.false()` if empty (`plan_model.py:153-156`). -/
def any3 (l : List (Option Bool)) : Option Bool := l.foldr or3 (some false)

/-- SQL `=` between two values.  `plan_model.py:67,274,289`. -/
def eq3 (a b : Val) : Option Bool :=
  if a = .null ∨ b = .null then none else some (decide (a = b))

/-- `(a1, ..., an) IN (rows)` (`plan_model.py:88-96`). -/
def in3 (vs : List Val) (rows : List (List Val)) : Option Bool :=
  any3 (rows.map fun ws => all3 (List.zipWith eq3 vs ws))

/-- The ON clause of a join / the WHERE of an EXISTS (`plan_model.py:272-279, 288-293`) holds. -/
def onTrue (j : Join) (r m : Row) : Bool :=
  all3 ((j.leftColumns.zip j.rightColumns).map fun p => eq3 (r.get p.1) (m.get p.2)) == some true

/-- `joined.join(right, onclause, isouter=outer)` (`plan_model.py:270-281`) for one partial tuple:
`none` is the all-NULL right side of an outer join. -/
def joinRow (D : Env) (outer : Bool) (j : Join) (r : Row) : List (Option Row) :=
  let ms := (D.rows j.right).filter (onTrue j r)
  if outer && ms.isEmpty then [none] else ms.map some

/-- Tuples of right rows joined to one row of the left table, one entry per join.
`plan_model.py:266-284`. -/
def joinTuples (D : Env) (outer : Bool) (r : Row) : List Join → List (List (Option Row))
  | [] => [[]]
  | j :: js => (joinRow D outer j r).flatMap fun m => (joinTuples D outer r js).map fun t => m :: t

/-- A join is executed as JOIN + GROUP BY if it is marked half unique and the table has a primary
key, else as EXISTS (`plan_model.py:269`). -/
def useJoin (D : Env) (t : TableId) (j : Join) : Bool := j.halfUnique && !(D.pk t).isEmpty

/-- EXISTS constraint of a join (`plan_model.py:286-295`). -/
def existsCond (D : Env) (j : Join) (r : Row) : Bool := (D.rows j.right).any (onTrue j r)

/-- `col IS NOT NULL` for the joined columns of one tuple (`plan_model.py:282-284, 302`). -/
def notNullConds : List Join → List (Option Row) → List Bool
  | j :: js, m :: ms =>
    (j.rightColumns.map fun c =>
      match m with
      | none => false
      | some m => decide (m.get c ≠ .null)) ++ notNullConds js ms
  | _, _ => []

/-- The WHERE condition added for joins (`plan_model.py:301-305`).  An empty `or_`/`and_` adds no
condition. -/
def joinCond (D : Env) (outer : Bool) (r : Row) (hs es : List Join) (tuple : List (Option Row)) :
    Bool :=
  if outer then
    let cs := (es.map fun j => existsCond D j r) ++ notNullConds hs tuple
    cs.isEmpty || cs.any id
  else (es.map fun j => existsCond D j r).all id

/-- GROUP BY the given key: keep one representative (the first) per group.  Selecting the other
columns of the table is legal because they depend on its primary key.
`plan_model.py:298-299`. -/
def groupBy (key : Row → List Val) : List Row → List (List Val) → List Row
  | [], _ => []
  | r :: rs, seen =>
    if key r ∈ seen then groupBy key rs seen else r :: groupBy key rs (key r :: seen)

/-- `SELECT columns` (`plan_model.py:256-260`): an empty or missing list selects everything. -/
def project (cols : Option (List Str)) (r : Row) : Row :=
  match cols with
  | none => r
  | some [] => r
  | some (c :: cs) => (c :: cs).map fun x => (x, r.get x)

/-- FROM / JOIN / WHERE / GROUP BY of a select (`plan_model.py:254-308`).  `cond i r` tells whether
the WHERE clause of the select is true on row `r` at position `i` of its table.  (In a join the
engine would draw `random()` once per joined tuple; here a clause draws once per row of the
table.) -/
def fromWhere (D : Env) (t : TableId) (joins : Option (List Join)) (outer : Bool)
    (cond : Nat → Row → Bool) : List Row :=
  match joins with
  | none => ((D.rows t).zipIdx.filter fun p => cond p.2 p.1).map Prod.fst
  | some [] => ((D.rows t).zipIdx.filter fun p => cond p.2 p.1).map Prod.fst
  | some (j :: js) =>
    let hs := (j :: js).filter (useJoin D t)
    let es := (j :: js).filter fun x => !useJoin D t x
    let tuples := (D.rows t).zipIdx.flatMap fun p =>
      ((joinTuples D outer p.1 hs).filter fun tup =>
        joinCond D outer p.1 hs es tup && cond p.2 p.1).map fun _ => p.1
    if hs.isEmpty then tuples else groupBy (fun r => (D.pk t).map r.get) tuples []

/-- `ORDER BY random() LIMIT n` (`plan_model.py:310-312`). -/
def applyLimit (E : Engine) (t : TableId) (tag : Nat) (limit : Option Nat) (l : List Row) :
    List Row :=
  match limit with
  | none => l
  | some n => (E.shuffle t tag l).take n

mutual
/-- `SQLWhereClause*.build` on the row `r` at position `i` of table `t`.
`plan_model.py:32-214`. -/
def Where.eval (E : Engine) (D : Env) (t : TableId) (i : Nat) (r : Row) : Where → Option Bool
  | .false_ => some false
  | .true_ => some true
  | .op o c v => E.op o (r.get c) v
  | .inVals cs vs neg =>
    let b := in3 (cs.map r.get) vs
    if neg then not3 b else b
  | .inStmt cs st neg =>
    let b := in3 (cs.map r.get) ((Stmt.eval E D st).map fun m => m.map Prod.snd)
    if neg then not3 b else b
  | .and cs => all3 (Where.evals E D t i r cs)
  | .or cs => any3 (Where.evals E D t i r cs)
  | .random thr tag => some (E.below thr t tag i)
  | .sql s => E.sql s t r
/-- The conditions of a clause, in order.  `plan_model.py:118,156`. -/
def Where.evals (E : Engine) (D : Env) (t : TableId) (i : Nat) (r : Row) :
    List Where → List (Option Bool)
  | [] => []
  | c :: cs => Where.eval E D t i r c :: Where.evals E D t i r cs
/-- Rows returned by `SQLStatementSelect.build` (`plan_model.py:253-314`). -/
def Sel.eval (E : Engine) (D : Env) : Sel → List Row
  | .mk cols t none limit joins outer tag =>
    (applyLimit E t tag limit (fromWhere D t joins outer fun _ _ => true)).map (project cols)
  | .mk cols t (some w) limit joins outer tag =>
    (applyLimit E t tag limit
      (fromWhere D t joins outer fun i r => Where.eval E D t i r w == some true)).map (project cols)
/-- The statements of a union, in order.  `plan_model.py:345`. -/
def Sel.evals (E : Engine) (D : Env) : List Sel → List (List Row)
  | [] => []
  | s :: ss => Sel.eval E D s :: Sel.evals E D ss
/-- Rows returned by a statement; UNION removes duplicates (`plan_model.py:344-345`). -/
def Stmt.eval (E : Engine) (D : Env) : Stmt → List Row
  | .select s => Sel.eval E D s
  | .union ss => ((Sel.evals E D ss).flatten).dedup
end

/-- `SQLTableQuery` (`plan_model.py:396-410`) with exactly one of its fields set. -/
inductive TableQuery where
  | sql (text : Str)
  | statement (s : Stmt)

/-- Rows returned by `SQLTableQuery.build`.  `plan_model.py:402-410`. -/
def TableQuery.eval (E : Engine) (D : Env) : TableQuery → List Row
  | .sql s => E.query s
  | .statement s => s.eval E D

/-- `SubsetPlan` (`plan_model.py:413-415`). -/
structure Plan where
  queries : Dict Str TableQuery
  passthrough : List Str

end Subsetter
