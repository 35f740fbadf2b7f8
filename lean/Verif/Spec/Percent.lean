import Verif.Spec.Planner

/-
Vocabulary for statements about `percent` and `amount`.
-/
namespace Subsetter.Spec
open Subsetter

mutual
/-- Thresholds of all `random` conditions. -/
def thresholdsW : Where → List Rat
  | .random thr _ => [thr]
  | .inStmt _ st _ => thresholdsStmt st
  | .and cs => thresholdsWs cs
  | .or cs => thresholdsWs cs
  | _ => []
def thresholdsWs : List Where → List Rat
  | [] => []
  | c :: cs => thresholdsW c ++ thresholdsWs cs
def thresholdsSel : Sel → List Rat
  | .mk _ _ none _ _ _ _ => []
  | .mk _ _ (some w) _ _ _ _ => thresholdsW w
def thresholdsSels : List Sel → List Rat
  | [] => []
  | s :: ss => thresholdsSel s ++ thresholdsSels ss
def thresholdsStmt : Stmt → List Rat
  | .select s => thresholdsSel s
  | .union ss => thresholdsSels ss
end

/-- Thresholds of the conditions of a query. -/
def thresholds : TableQuery → List Rat
  | .sql _ => []
  | .statement st => thresholdsStmt st

/-- What `random()` returns: one of `N` values, each as likely as the others. -/
abbrev Source (N : Nat) := Fin N → Rat

/-- `N` values evenly spread from 0 to 1 (PostgreSQL, MySQL). -/
def unitSource (N : Nat) : Source N := fun j => (j : Nat) / N

/-- Signed integers of 64 bits (SQLite, https://www.sqlite.org/lang_corefunc.html#random). -/
def sqliteSource : Source (2 ^ 64) := fun j => ((j : Nat) : Rat) - 2 ^ 63

/-- The engine compares the draws `f`, one for each of the first `n` rows of table `k`, with thresholds between 0 and 1. -/
def Compares {N n : Nat} (draw : Source N) (f : Fin n → Fin N) (E : Engine) (k : Key) : Prop :=
  ∀ (i : Fin n) (thr : Rat), 0 < thr → thr < 1 → E.below thr ⟨k.1, k.2, false⟩ 0 i = decide (draw (f i) < thr)

/-- The engine orders lists of `n` rows of table `k` by the permutation `g`. -/
def Orders {n : Nat} (g : Equiv.Perm (Fin n)) (E : Engine) (k : Key) : Prop :=
  ∀ (l : List Row) (h : l.length = n), E.shuffle ⟨k.1, k.2, false⟩ 0 l = List.ofFn fun j : Fin n => l.get ((g j).cast h.symm)

/-- The row meets the options `sql`, `like` and `in` of a target (`config_model.py:15-21`). -/
structure Eligible (E : Engine) (k : Key) (x : TargetConfig) (r : Row) : Prop where
  sql : ∀ s, x.sql = some s → E.sql s ⟨k.1, k.2, false⟩ r = some true
  like : ∀ c pats, (c, pats) ∈ x.like → ∀ pat ∈ pats, E.op .like (r.get c) (.str pat) = some true
  in_ : ∀ c vs, (c, vs) ∈ x.in_ → r.get c ≠ .null ∧ r.get c ∈ vs

end Subsetter.Spec
