import Verif.Model.Build

/-
When a plan can be turned into SQL that means the same.
-/
namespace Subsetter.Spec
open Subsetter

mutual
/-- The condition draws a random number itself (not in a subquery). -/
def Draws : Where → Prop
  | .random _ _ => True
  | .and cs => DrawsAny cs
  | .or cs => DrawsAny cs
  | _ => False
def DrawsAny : List Where → Prop
  | [] => False
  | c :: cs => Draws c ∨ DrawsAny cs
end

mutual
/-- Selects that join draw no random numbers, of which the database makes one for each combination of rows, and selects
with a limit return whole rows. -/
def WhereFits : Where → Prop
  | .inStmt _ st _ => StmtFits st
  | .and cs => WheresFit cs
  | .or cs => WheresFit cs
  | _ => True
def WheresFit : List Where → Prop
  | [] => True
  | c :: cs => WhereFits c ∧ WheresFit cs
def SelFits : Sel → Prop
  | .mk cols _ none limit _ _ _ => (limit ≠ none → cols = none ∨ cols = some [])
  | .mk cols _ (some w) limit joins _ _ =>
    (limit ≠ none → cols = none ∨ cols = some []) ∧ (joins = none ∨ joins = some [] ∨ ¬ Draws w) ∧ WhereFits w
def SelsFit : List Sel → Prop
  | [] => True
  | x :: xs => SelFits x ∧ SelsFit xs
def StmtFits : Stmt → Prop
  | .select x => SelFits x
  | .union xs => SelsFit xs
end

/-- The database `R` holds for the table objects of `X` what statements of the plan see in `D`. -/
def Holds (X : BuildCtx) (R : SqlObj → List Row) (D : Env) : Prop :=
  ∀ t s o s', X.call t s = .ok (o, s') →
    R o.obj = D.rows t ∧ o.primaryKey = D.pk t ∧ o.columns.Nodup ∧ ∀ r ∈ D.rows t, r.map Prod.fst = o.columns

end Subsetter.Spec
