import Verif.Model.Exec

/-
The statements subsetter hands to SQLAlchemy, as syntax trees, and what SQL says they return.  Unlike in `Model/Sql.lean`
names are explicit: columns belong to named elements of FROM clauses, and subqueries see the names around them.
-/
namespace Subsetter

/-- An `sa.Table`: of the source or a temporary one.  `metadata.py:222-223`. -/
inductive SqlObj where
  | src (k : Key)
  | temp (k : Key) (copy : Nat)
  deriving DecidableEq

/-- The name of an element of a FROM clause: the table itself or an anonymous alias.
`plan_model.py:254,267`. -/
inductive Name where
  | obj (o : SqlObj)
  | alias (n : Nat)
  deriving DecidableEq

/-- A column of an element of a FROM clause.  `plan_model.py:61,258,274,283`. -/
structure Col where
  of : Name
  name : Str

/-- A selected expression: a column or `row_number() OVER (ORDER BY ...) + add`, with its label.
`plan_model.py:258`, `sampler.py:876-890`. -/
inductive Item where
  | col (c : Col) (label : Str)
  | number (order : List Col) (add : Int) (label : Str)

mutual
/-- SQL conditions.  `random` and `text` carry the table of the plan they come from, which with `tag` tells apart the
random draws (see `Engine`); `text` is evaluated on the row bound to `n`.
`plan_model.py:32-214,272-303`. -/
inductive Cond where
  | true_
  | false_
  | cmp (o : Op) (c : Col) (v : Val)
  | eq (a b : Col)
  | notNull (c : Col)
  | inVals (cs : List Col) (vs : List (List Val))
  | inQuery (cs : List Col) (q : Query)
  | not (c : Cond)
  | and (cs : List Cond)
  | or (cs : List Cond)
  | random (thr : Rat) (t : TableId) (tag : Nat)
  | text (s : Str) (t : TableId) (n : Name)
  /-- `EXISTS (SELECT * FROM o AS n WHERE cs)` -/
  | exists_ (o : SqlObj) (n : Name) (cs : List Cond)

/-- FROM clauses.  `plan_model.py:264,267-281,297`. -/
inductive From where
  | table (o : SqlObj)
  | sub (q : Query) (n : Nat)
  | join (l : From) (o : SqlObj) (n : Name) (on : List (Col × Col)) (outer : Bool)

/-- Statements.  `limit` is `ORDER BY random() LIMIT`, with the table and tag that tell apart random orders.
`plan_model.py:253-314,344-345,402-410`. -/
inductive Query where
  | select (items : List Item) (from_ : From) (where_ : List Cond) (group : Option (List Col))
      (limit : Option (Nat × TableId × Nat))
  | union (qs : List Query)
  | text (s : Str)
end

/-- The rows bound to names, innermost first.  An outer join without match binds the empty row, whose columns are
NULL.  `plan_model.py:254,267-281`. -/
abbrev Scope := List (Name × Row)

/-- The row bound to a name.  `plan_model.py:267-281`. -/
def Scope.row (s : Scope) (n : Name) : Row := (dget s n).getD []

/-- The value of a column.  `plan_model.py:61,274,283`. -/
def Scope.get (s : Scope) (c : Col) : Val := (s.row c.of).get c.name

/-- `row_number()` of each of `n` rows, given their order.  `sampler.py:876-890`. -/
def rowNumbers (le : List Val → List Val → Bool) (keys : List (List Val)) : List Int :=
  let order := (List.range keys.length).insertionSort fun i j => le (keys.getD i []) (keys.getD j []) = true
  (List.range keys.length).map fun i => ((order.idxOf i + 1 : Nat) : Int)

/-- The value of a selected expression for every row of the result.
`plan_model.py:258`, `sampler.py:876-890`. -/
def Item.values (le : List Val → List Val → Bool) (ss : List Scope) : Item → List (Str × Val)
  | .col c label => ss.map fun s => (label, s.get c)
  | .number order add label =>
    (rowNumbers le (ss.map fun s => order.map s.get)).map fun n => (label, .int (n + add))

/-- The selected rows.  `plan_model.py:256-260`. -/
def selectItems (le : List Val → List Val → Bool) (ss : List Scope) (items : List Item) : List Row :=
  (List.range ss.length).map fun i => items.filterMap fun x => (x.values le ss)[i]?

/-- GROUP BY: one row of each group.  `plan_model.py:298-299`. -/
def groupScopes (key : Scope → List Val) : List Scope → List (List Val) → List Scope
  | [], _ => []
  | s :: ss, seen => if key s ∈ seen then groupScopes key ss seen else s :: groupScopes key ss (key s :: seen)

/-- The order by which LIMIT selects is that of the selected rows.  `plan_model.py:310-312`. -/
def limitRows (E : Engine) : Option (Nat × TableId × Nat) → List Row → List Row
  | none, l => l
  | some (n, t, tag), l => (E.shuffle t tag l).take n

mutual
/-- The value of a condition in a scope; `i` is the position of the row in the FROM clause, for random draws.
`plan_model.py:32-214,272-303`. -/
def Cond.eval (E : Engine) (le : List Val → List Val → Bool) (R : SqlObj → List Row) (i : Nat) (s : Scope) :
    Cond → Option Bool
  | .true_ => some true
  | .false_ => some false
  | .cmp o c v => E.op o (s.get c) v
  | .eq a b => eq3 (s.get a) (s.get b)
  | .notNull c => some (decide (s.get c ≠ .null))
  | .inVals cs vs => in3 (cs.map s.get) vs
  | .inQuery cs q => in3 (cs.map s.get) ((Query.eval E le R s q).map fun r => r.map Prod.snd)
  | .not c => not3 (Cond.eval E le R i s c)
  | .and cs => all3 (Cond.evals E le R i s cs)
  | .or cs => any3 (Cond.evals E le R i s cs)
  | .random thr t tag => some (E.below thr t tag i)
  | .text x t n => E.sql x t (s.row n)
  | .exists_ o n cs => some ((R o).any fun r => all3 (Cond.evals E le R i ((n, r) :: s) cs) == some true)
/-- The values of several conditions.  `plan_model.py:118,156`. -/
def Cond.evals (E : Engine) (le : List Val → List Val → Bool) (R : SqlObj → List Row) (i : Nat) (s : Scope) :
    List Cond → List (Option Bool)
  | [] => []
  | c :: cs => Cond.eval E le R i s c :: Cond.evals E le R i s cs
/-- The rows of a FROM clause.  Subqueries in it do not see names outside.
`plan_model.py:262-299`. -/
def From.eval (E : Engine) (le : List Val → List Val → Bool) (R : SqlObj → List Row) : From → List Scope
  | .table o => (R o).map fun r => [(.obj o, r)]
  | .sub q n => (Query.eval E le R [] q).map fun r => [(.alias n, r)]
  | .join l o n on outer =>
    (From.eval E le R l).flatMap fun s =>
      let ms := (R o).filter fun r =>
        all3 (on.map fun e => eq3 (Scope.get ((n, r) :: s) e.1) (Scope.get ((n, r) :: s) e.2)) == some true
      if outer && ms.isEmpty then [(n, []) :: s] else ms.map fun r => (n, r) :: s
/-- The rows a statement returns in the scope of `s`.  `plan_model.py:253-314,344-345`. -/
def Query.eval (E : Engine) (le : List Val → List Val → Bool) (R : SqlObj → List Row) (s : Scope) : Query → List Row
  | .select items from_ where_ group limit =>
    let found := ((From.eval E le R from_).zipIdx.filter fun b =>
      all3 (Cond.evals E le R b.2 (b.1 ++ s) where_) == some true).map Prod.fst
    let groups := match group with
      | none => found
      | some g => groupScopes (fun b => g.map b.get) found []
    limitRows E limit (selectItems le groups items)
  | .union qs => ((Query.evals E le R s qs).flatten).dedup
  | .text x => E.query x
/-- The rows of several statements.  `plan_model.py:345`. -/
def Query.evals (E : Engine) (le : List Val → List Val → Bool) (R : SqlObj → List Row) (s : Scope) :
    List Query → List (List Row)
  | [] => []
  | q :: qs => Query.eval E le R s q :: Query.evals E le R s qs
end

end Subsetter
