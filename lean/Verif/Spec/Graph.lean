import Verif.Model.Py
import Mathlib.Logic.Relation
import Mathlib.Data.List.Chain

/-
Vocabulary for statements about foreign-key graphs and orderings.  Independent of the solver model.
A graph is a Python dict from nodes to sets of nodes.
-/
namespace Subsetter.Spec

variable {α : Type u}

/-- `u` references `v` in the dict `G`. -/
def Edge (G : List (α × List α)) (u v : α) : Prop := ∃ es, (u, es) ∈ G ∧ v ∈ es

/-- `u` is a node of `G`. -/
def Node (G : List (α × List α)) (u : α) : Prop := u ∈ G.map Prod.fst

/-- The association list really represents a Python dict of sets, and every edge leads to a node. -/
structure IsGraph (G : List (α × List α)) : Prop where
  keys_nodup : (G.map Prod.fst).Nodup
  sets_nodup : ∀ u es, (u, es) ∈ G → es.Nodup
  closed : ∀ u v, Edge G u v → Node G v

/-- `a` occurs in `l` strictly before an occurrence of `b`. -/
def Before (l : List α) (a b : α) : Prop := ∃ l₁ l₂ l₃, l = l₁ ++ a :: (l₂ ++ b :: l₃)

/-- `v` can be reached from `u` following edges in either direction. -/
def Connected (G : List (α × List α)) : α → α → Prop :=
  Relation.ReflTransGen fun a b => Edge G a b ∨ Edge G b a

/-- `u` lies on a directed cycle. -/
def OnCycle (G : List (α × List α)) (u : α) : Prop := Relation.TransGen (Edge G) u u

/-- `c` lists the nodes of a closed chain of `R`-steps: `c₀ R c₁ R ... R cₙ R c₀`. -/
def ClosedChain (R : α → α → Prop) : List α → Prop
  | [] => False
  | x :: xs => List.IsChain R ((x :: xs) ++ [x])

/-- Same nodes and same edges (different iteration orders allowed). -/
def SameGraph (G G' : List (α × List α)) : Prop :=
  (∀ u, Node G u ↔ Node G' u) ∧ ∀ u v, Edge G u v ↔ Edge G' u v

/-- The ordering guarantee documented at `order_graph`: `source` first, nothing twice, and each
other node has, among the nodes before it, nodes pointing to it or nodes it points to, but not
both. -/
structure SamplingOrder (G : List (α × List α)) (source : α) (l : List α) : Prop where
  first : l.head? = some source
  nodup : l.Nodup
  one_direction : ∀ u ∈ l, u ≠ source →
    (((∃ v, Before l v u ∧ Edge G v u) ∧ ¬ ∃ v, Before l v u ∧ Edge G u v) ∨
     ((∃ v, Before l v u ∧ Edge G u v) ∧ ¬ ∃ v, Before l v u ∧ Edge G v u))

end Subsetter.Spec
