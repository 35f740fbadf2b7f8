import Verif.Model.Sql

/-
Vocabulary for statements about queries.
-/
namespace Subsetter

/-- A select without joins. -/
def Sel.JoinFree (s : Sel) : Prop := s.joins = none ∨ s.joins = some []

mutual
/-- No union inside the clause / statement is one whose merging into a single select would lose
joins: either none of its members has joins, or at most one member is without a limit (then
`SQLStatementUnion.simplify` never merges). -/
def Where.MergeSafe : Where → Prop
  | .inStmt _ st _ => Stmt.MergeSafe st
  | .and cs => Where.MergeSafes cs
  | .or cs => Where.MergeSafes cs
  | _ => True
def Where.MergeSafes : List Where → Prop
  | [] => True
  | c :: cs => Where.MergeSafe c ∧ Where.MergeSafes cs
def Sel.MergeSafe : Sel → Prop
  | .mk _ _ none _ _ _ _ => True
  | .mk _ _ (some w) _ _ _ _ => Where.MergeSafe w
def Sel.MergeSafes : List Sel → Prop
  | [] => True
  | s :: ss => Sel.MergeSafe s ∧ Sel.MergeSafes ss
def Stmt.MergeSafe : Stmt → Prop
  | .select s => Sel.MergeSafe s
  | .union ss => Sel.MergeSafes ss ∧
      ((∀ s ∈ ss, s.JoinFree) ∨ (ss.filter fun s => s.limit.isNone).length ≤ 1)
end

mutual
/-- No empty union occurs. -/
def Where.NoEmptyUnion : Where → Prop
  | .inStmt _ st _ => Stmt.NoEmptyUnion st
  | .and cs => Where.NoEmptyUnions cs
  | .or cs => Where.NoEmptyUnions cs
  | _ => True
def Where.NoEmptyUnions : List Where → Prop
  | [] => True
  | c :: cs => Where.NoEmptyUnion c ∧ Where.NoEmptyUnions cs
def Sel.NoEmptyUnion : Sel → Prop
  | .mk _ _ none _ _ _ _ => True
  | .mk _ _ (some w) _ _ _ _ => Where.NoEmptyUnion w
def Sel.NoEmptyUnions : List Sel → Prop
  | [] => True
  | s :: ss => Sel.NoEmptyUnion s ∧ Sel.NoEmptyUnions ss
def Stmt.NoEmptyUnion : Stmt → Prop
  | .select s => Sel.NoEmptyUnion s
  | .union ss => ss ≠ [] ∧ Sel.NoEmptyUnions ss
end

/-- Column lists of a join have the same non-zero length. -/
def Join.WellFormed (j : Join) : Prop :=
  j.leftColumns.length = j.rightColumns.length ∧ j.rightColumns ≠ []

namespace Spec

/-- The left row `r` refers to the right row `m`: the columns pairwise hold the same non-NULL
value. -/
def Refers (lcols rcols : List Str) (r m : Row) : Prop :=
  ∀ p ∈ lcols.zip rcols, r.get p.1 ≠ .null ∧ r.get p.1 = m.get p.2

/-- The rows a select with these joins should see: rows of `t` (with their position) that refer to
some row in every joined table (inner), or in at least one (outer). -/
def JoinOK (D : Env) (joins : List Join) (outer : Bool) (r : Row) : Prop :=
  if outer then ∃ j ∈ joins, ∃ m ∈ D.rows j.right, Refers j.leftColumns j.rightColumns r m
  else ∀ j ∈ joins, ∃ m ∈ D.rows j.right, Refers j.leftColumns j.rightColumns r m

end Spec
end Subsetter
