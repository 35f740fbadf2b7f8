import Verif.Spec.Graph

/- Executable sufficient conditions, used only to exhibit concrete instances. -/
namespace Subsetter
open Spec

variable {α : Type u}

instance [DecidableEq α] (G : List (α × List α)) (u : α) : Decidable (Node G u) := by
  unfold Node; infer_instance

theorem isGraph_of_check {G : List (α × List α)}
    (h : (G.map Prod.fst).Nodup ∧ (∀ p ∈ G, p.2.Nodup ∧ ∀ v ∈ p.2, v ∈ G.map Prod.fst)) :
    IsGraph G :=
  ⟨h.1, fun u es hu => (h.2 (u, es) hu).1, fun u v ⟨es, h1, h2⟩ => (h.2 (u, es) h1).2 v h2⟩

theorem no_in_edge_of_check {G : List (α × List α)} {s : α} (h : ∀ p ∈ G, s ∉ p.2) :
    ∀ v, ¬ Edge G v s := fun v ⟨es, h1, h2⟩ => h (v, es) h1 h2

end Subsetter
