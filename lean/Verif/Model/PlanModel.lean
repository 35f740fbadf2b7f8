import Verif.Model.Str
import Mathlib.Data.Rat.Defs
import Mathlib.Algebra.Order.Ring.Unbundled.Rat

/-
Model of the syntax tree and of `simplify` in `/repo/subsetter/plan_model.py`.
-/
namespace Subsetter

/-- A database value.  `SQLLiteralType` (`common.py:18`) plus NULL.  `other` stands for values of
any further type (floats, dates, ...).  Equality is structural: collations are not modelled. -/
inductive Val where
  | null
  | int (i : Int)
  | str (s : Str)
  | other (n : Nat)
  deriving DecidableEq, Repr

/-- `SQLTableIdentifier` (`plan_model.py:16-24`). -/
structure TableId where
  schema : Str
  name : Str
  sampled : Bool
  deriving DecidableEq, Repr

/-- `SQLKnownOperator` (`common.py:17`); `<>` and `!=` are the same operator
(`plan_model.py:68`). -/
inductive Op where
  | lt | gt | eq | ne | like | notLike
  deriving DecidableEq, Repr

/-- `SQLLeftJoin` (`plan_model.py:235-239`). -/
structure Join where
  right : TableId
  leftColumns : List Str
  rightColumns : List Str
  halfUnique : Bool
  deriving DecidableEq, Repr

mutual
/-- `SQLWhereClause` (`plan_model.py:27-232`).  `values` of `SQLWhereClauseIn` is split into its
two alternatives.  `random` carries a `tag` that identifies the clause: it selects the random
draws of this clause in the semantics and has no counterpart in the code.  `sql_params` are part of
the opaque SQL text. -/
inductive Where where
  | false_
  | true_
  | op (o : Op) (col : Str) (value : Val)
  | inVals (cols : List Str) (values : List (List Val)) (negated : Bool)
  | inStmt (cols : List Str) (stmt : Stmt) (negated : Bool)
  | and (conditions : List Where)
  | or (conditions : List Where)
  | random (threshold : Rat) (tag : Nat)
  | sql (text : Str)

/-- `SQLStatementSelect` (`plan_model.py:242-251`).  `limit` is a natural number (what a negative
LIMIT means differs between databases and is not modelled).  `tag` selects the random draws of
`ORDER BY random()` and has no counterpart in the code. -/
inductive Sel where
  | mk (columns : Option (List Str)) (from_ : TableId) (where_ : Option Where)
      (limit : Option Nat) (joins : Option (List Join)) (joinsOuter : Bool) (tag : Nat)

/-- `SQLStatement` (`plan_model.py:337-342, 387-393`). -/
inductive Stmt where
  | select (s : Sel)
  | union (statements : List Sel)
end

namespace Sel
/-- `columns`.  `plan_model.py:244`. -/
def columns : Sel → Option (List Str) | mk c _ _ _ _ _ _ => c
/-- `from_`.  `plan_model.py:245`. -/
def from_ : Sel → TableId | mk _ f _ _ _ _ _ => f
/-- `where`.  `plan_model.py:246`. -/
def where_ : Sel → Option Where | mk _ _ w _ _ _ _ => w
/-- `limit`.  `plan_model.py:247`. -/
def limit : Sel → Option Nat | mk _ _ _ l _ _ _ => l
/-- `joins`.  `plan_model.py:248`. -/
def joins : Sel → Option (List Join) | mk _ _ _ _ j _ _ => j
/-- `joins_outer`.  `plan_model.py:249`. -/
def joinsOuter : Sel → Bool | mk _ _ _ _ _ o _ => o
/-- Tells apart the random orders of selects.  `plan_model.py:312`. -/
def tag : Sel → Nat | mk _ _ _ _ _ _ t => t
end Sel

/-- `isinstance(x, SQLWhereClauseTrue)`.  `plan_model.py:125,175,324`. -/
def Where.isTrue : Where → Bool | .true_ => true | _ => false
/-- `isinstance(x, SQLWhereClauseFalse)`.  `plan_model.py:137,163,352`. -/
def Where.isFalse : Where → Bool | .false_ => true | _ => false

/-- What the `itertools.chain` in `SQLWhereClauseAnd.simplify` splices in
(`plan_model.py:131`). -/
def Where.andParts : Where → List Where | .and cs => cs | c => [c]
/-- What the `itertools.chain` in `SQLWhereClauseOr.simplify` splices in
(`plan_model.py:169`). -/
def Where.orParts : Where → List Where | .or cs => cs | c => [c]

/-- Exceptions raised by `simplify`: `index` is the `IndexError` of `self.statements[0]` for an
empty union (`plan_model.py:357`); `fuel` is an artefact of the model, proved unreachable. -/
inductive SimpErr where
  | index
  | fuel
  deriving DecidableEq, Repr

/-- `SQLWhereClauseAnd.simplify` (`plan_model.py:120-144`) once the conditions are simplified. -/
def andFinish (simp : List Where) : Where :=
  let conds := (simp.filter fun c => !c.isTrue).flatMap Where.andParts
  if conds.any Where.isFalse then .false_
  else
    match conds with
    | [] => .true_
    | [c] => c
    | cs => .and cs

/-- `SQLWhereClauseOr.simplify` (`plan_model.py:158-182`) once the conditions are simplified. -/
def orFinish (simp : List Where) : Where :=
  let conds := (simp.filter fun c => !c.isFalse).flatMap Where.orParts
  if conds.any Where.isTrue then .true_
  else
    match conds with
    | [] => .false_
    | [c] => c
    | cs => .or cs

/-- `SQLWhereClauseRandom.simplify` (`plan_model.py:195-200`). -/
def randomSimplify (thr : Rat) (tag : Nat) : Where :=
  if thr ≤ 0 then .false_ else if 1 ≤ thr then .true_ else .random thr tag

/-- `SQLStatementSelect.simplify` (`plan_model.py:316-334`) once `where` is simplified: a `true`
condition is dropped, `joins_outer` is only kept for a non-empty join list. -/
def selFinish (s : Sel) (w : Where) : Sel :=
  .mk s.columns s.from_ (if w.isTrue then none else some w) s.limit
    (match s.joins with
      | none => none
      | some [] => none
      | some (j :: js) => some (j :: js))
    (match s.joins with
      | none => false
      | some [] => false
      | some (_ :: _) => s.joinsOuter)
    s.tag

/-- The `for ... else` of `SQLStatementUnion.simplify` (`plan_model.py:363-369`): all statements
have the table and columns of the first and no limit.  The joins are not compared. -/
def canMerge (s0 : Sel) (ss : List Sel) : Bool :=
  ss.all fun s => decide (s.from_ = s0.from_) && decide (s.columns = s0.columns) && s.limit.isNone

/-- The select built at `plan_model.py:371-382`: it keeps neither `joins` nor `joins_outer`. -/
def mergedSel (s0 : Sel) (ss : List Sel) : Sel :=
  .mk s0.columns s0.from_ (some (.or (ss.map fun s => s.where_.getD .true_))) none none false s0.tag

mutual
/-- `simplify` of a where clause (`plan_model.py:35-217`). -/
def simpW : Nat → Where → Except SimpErr Where
  | 0, _ => .error .fuel
  | n + 1, w =>
    match w with
    | .false_ => .ok .false_
    | .true_ => .ok .true_
    | .op o c v => .ok (.op o c v)
    | .inVals cs vs neg => .ok (.inVals cs vs neg)
    | .inStmt cs st neg =>
      match simpStmt n st with
      | .error e => .error e
      | .ok st' => .ok (.inStmt cs st' neg)
    | .and cs =>
      match cs.mapM (simpW n) with
      | .error e => .error e
      | .ok cs' => .ok (andFinish cs')
    | .or cs =>
      match cs.mapM (simpW n) with
      | .error e => .error e
      | .ok cs' => .ok (orFinish cs')
    | .random thr tag => .ok (randomSimplify thr tag)
    | .sql t => .ok (.sql t)

/-- `SQLStatementSelect.simplify` (`plan_model.py:316-334`). -/
def simpSel : Nat → Sel → Except SimpErr Sel
  | 0, _ => .error .fuel
  | n + 1, s =>
    match s.where_ with
    | none => .ok s
    | some w =>
      match simpW n w with
      | .error e => .error e
      | .ok w' => .ok (selFinish s w')

/-- `simplify` of a statement; the union case is `plan_model.py:347-384`. -/
def simpStmt : Nat → Stmt → Except SimpErr Stmt
  | 0, _ => .error .fuel
  | n + 1, st =>
    match st with
    | .select s =>
      match simpSel n s with
      | .error e => .error e
      | .ok s' => .ok (.select s')
    | .union ss =>
      match ss.mapM (simpSel n) with
      | .error e => .error e
      | .ok all =>
        match all.filter (fun s => !(s.where_.getD .true_).isFalse) with
        | [] =>
          match ss with
          | [] => .error .index
          | s :: _ =>
            match simpSel n s with
            | .error e => .error e
            | .ok s' => .ok (.select s')
        | [s0] => .ok (.select s0)
        | s0 :: s1 :: rest =>
          if canMerge s0 (s0 :: s1 :: rest) then
            match simpSel n (mergedSel s0 (s0 :: s1 :: rest)) with
            | .error e => .error e
            | .ok s' => .ok (.select s')
          else .ok (.union (s0 :: s1 :: rest))
end

mutual
/-- Number of syntax nodes (a select counts three, so that merging a union shrinks it).
`plan_model.py:35-217`. -/
def Where.size : Where → Nat
  | .and cs => 1 + Where.sizes cs
  | .or cs => 1 + Where.sizes cs
  | .inStmt _ st _ => 1 + Stmt.size st
  | _ => 1
/-- Size of the conditions of a clause.  `plan_model.py:121-127,159-165`. -/
def Where.sizes : List Where → Nat
  | [] => 0
  | c :: cs => Where.size c + Where.sizes cs
/-- Size of a select.  `plan_model.py:316-334`. -/
def Sel.size : Sel → Nat
  | .mk _ _ none _ _ _ _ => 3
  | .mk _ _ (some w) _ _ _ _ => 3 + Where.size w
/-- Size of the statements of a union.  `plan_model.py:348-354`. -/
def Sel.sizes : List Sel → Nat
  | [] => 0
  | s :: ss => Sel.size s + Sel.sizes ss
/-- Size of a statement.  `plan_model.py:347-384`. -/
def Stmt.size : Stmt → Nat
  | .select s => 1 + Sel.size s
  | .union ss => 1 + Sel.sizes ss
end

/-- `where.simplify()`.  `plan_model.py:35-217`. -/
def Where.simplify (w : Where) : Except SimpErr Where := simpW w.size w
/-- `select.simplify()`.  `plan_model.py:316-334`. -/
def Sel.simplify (s : Sel) : Except SimpErr Sel := simpSel s.size s
/-- `statement.simplify()`.  `plan_model.py:316-334,347-384`. -/
def Stmt.simplify (s : Stmt) : Except SimpErr Stmt := simpStmt s.size s

end Subsetter
