import Verif.Proofs.Order
import Verif.Proofs.OrderDet
import Verif.Proofs.Kahn
import Verif.Proofs.GraphCheck

/-
Properties C01-C06: the table ordering of `solver.py`.
-/
namespace Subsetter.Props
open Subsetter Spec

variable {α : Type u} [LinearOrder α]

/-- C01 (and the "no self-reference" half of the documented contract): whenever `order_graph`
returns, the result is a one-direction order starting at the source. -/
theorem c01_order_one_direction {G : Graph α} (hG : IsGraph G) {s : α} (hs : Node G s)
    (hsrc : ∀ v, ¬ Edge G v s) {l : List α} (h : orderGraph G s = .ok l) :
    SamplingOrder G s l ∧ ∀ u ∈ l, ¬ Edge G u u := by
  rcases orderGraph_spec hG hs (Or.inl hsrc) with ⟨l', h1, h2⟩ | ⟨e, h1, -⟩
  · rw [h] at h1; cases h1
    refine ⟨⟨h2.head, h2.nodup, fun u hu hus => h2.onedir u hu hus⟩, fun u hu huu => ?_⟩
    by_cases hus : u = s
    · subst hus; exact hsrc _ huu
    · exact h2.noloop u hu hus huu
  · rw [h] at h1; cases h1

/-- Graph used as non-trivial instance: 0 is the source; 1, 2 targets; 3 references 1; 2 and 3
reference 4; 5 is unconnected. -/
def exGraph : Graph Nat := [(0, [1, 2]), (1, []), (2, [4]), (3, [1, 4]), (4, []), (5, [])]

theorem exGraph_ok : IsGraph exGraph := isGraph_of_check (by decide)
theorem exGraph_src : ∀ v, ¬ Edge exGraph v 0 := no_in_edge_of_check (by decide)
theorem exGraph_order : orderGraph exGraph 0 = .ok [0, 2, 4, 1, 3] := by decide

example : SamplingOrder exGraph 0 [0, 2, 4, 1, 3] :=
  (c01_order_one_direction exGraph_ok (by decide) exGraph_src exGraph_order).1

/-- The hypothesis on the source cannot be dropped: with `a ⇄ b` and source `a` the order `[a, b]`
is returned although `b` both references and is referenced by `a`. -/
theorem c01_needs_source_hypothesis :
    orderGraph [(0, [1]), (1, [0])] 0 = .ok [0, 1] ∧
    Edge [(0, [1]), (1, [0])] 0 1 ∧ Edge [(0, [1]), (1, [0])] 1 0 := by
  refine ⟨by decide, ⟨[1], by decide, by decide⟩, ⟨[0], by decide, by decide⟩⟩

/-- C02: exactly the connected nodes are ordered. -/
theorem c02_order_exactly_connected {G : Graph α} (hG : IsGraph G) {s : α} (hs : Node G s)
    (hsrc : (∀ v, ¬ Edge G v s) ∨ ∀ v, ¬ Edge G s v) {l : List α} (h : orderGraph G s = .ok l)
    (u : α) : u ∈ l ↔ Connected G s u := by
  rcases orderGraph_spec hG hs hsrc with ⟨l', h1, h2⟩ | ⟨e, h1, -⟩
  · rw [h] at h1; cases h1
    exact h2.mem_iff u
  · rw [h] at h1; cases h1

example : ¬ Connected exGraph 0 5 := by
  rw [← c02_order_exactly_connected exGraph_ok (by decide) (Or.inl exGraph_src) exGraph_order]
  decide

example : Connected exGraph 0 3 := by
  rw [← c02_order_exactly_connected exGraph_ok (by decide) (Or.inl exGraph_src) exGraph_order]
  decide

/-- Without the hypothesis a connected node can be missing: source 0 referenced by 2. -/
theorem c02_needs_source_hypothesis :
    orderGraph [(0, [1]), (1, []), (2, [0])] 0 = .ok [0, 1] ∧
    Connected [(0, [1]), (1, []), (2, [0])] 0 2 :=
  ⟨by decide, Relation.ReflTransGen.single (Or.inr ⟨[0], by decide, by decide⟩)⟩

/-- C03, part 1: the cycle error is raised iff there is a directed cycle among the connected
tables. -/
theorem c03_cycle_iff {G : Graph α} (hG : IsGraph G) {s : α} (hs : Node G s)
    (hsrc : ∀ v, ¬ Edge G v s) :
    (∃ c, orderGraph G s = .error (.cycle c)) ↔ ∃ u, Connected G s u ∧ OnCycle G u := by
  rcases orderGraph_spec hG hs (Or.inl hsrc) with ⟨l, h1, h2⟩ | ⟨e, h1, c, rfl, h3, h4⟩
  · constructor
    · rintro ⟨c, hc⟩; rw [h1] at hc; cases hc
    · rintro ⟨u, hu, hc⟩; exact absurd hc (h2.acyclic (Or.inl hsrc) hu)
  · refine ⟨fun _ => ?_, fun _ => ⟨c, h1⟩⟩
    obtain ⟨x, hx, hc⟩ := closedChain_rev_onCycle h3
    exact ⟨x, h4 x hx, hc⟩

/-- C03, part 2: a reported cycle is a closed chain of references between connected tables, listed
along or against the direction of the references. -/
theorem c03_reported_cycle_real {G : Graph α} (hG : IsGraph G) {s : α} (hs : Node G s)
    (hsrc : ∀ v, ¬ Edge G v s) {c : List α} (h : orderGraph G s = .error (.cycle c)) :
    (ClosedChain (Edge G) c ∨ ClosedChain (fun a b => Edge G b a) c) ∧
    ∀ x ∈ c, Connected G s x := by
  rcases orderGraph_spec hG hs (Or.inl hsrc) with ⟨l, h1, h2⟩ | ⟨e, h1, c', rfl, h3, h4⟩
  · rw [h] at h1; cases h1
  · rw [h] at h1; cases h1
    exact ⟨h3, h4⟩

/-- 0 → 1, and the cycle 2 → 3 → 4 → 2 whose node 2 references 1: found in the second (reversed)
phase, hence reported against the direction of the references. -/
def exCyclic : Graph Nat := [(0, [1]), (1, []), (2, [1, 3]), (3, [4]), (4, [2])]

theorem exCyclic_result : orderGraph exCyclic 0 = .error (.cycle [2, 4, 3]) := by decide

example : IsGraph exCyclic ∧ Node exCyclic 0 ∧ ∀ v, ¬ Edge exCyclic v 0 :=
  ⟨isGraph_of_check (by decide), by decide, no_in_edge_of_check (by decide)⟩

/-- The forward reading of the reported list is false here: 2 does not reference 4. -/
theorem c03_cycle_may_be_reversed :
    orderGraph exCyclic 0 = .error (.cycle [2, 4, 3]) ∧ ¬ Edge exCyclic 2 4 := by
  refine ⟨by decide, ?_⟩
  rintro ⟨es, h1, h2⟩
  simp [exCyclic] at h1
  subst h1
  revert h2; decide

/-- C04: same nodes, same edges ⇒ same ordering, for any source. -/
theorem c04_order_independent {G G' : Graph α} (hG : IsGraph G) (hG' : IsGraph G')
    (h : SameGraph G G') (s : α) (l : List α) :
    orderGraph G s = .ok l ↔ orderGraph G' s = .ok l :=
  ⟨orderGraph_det hG hG' h, orderGraph_det hG' hG ⟨fun u => (h.1 u).symm, fun u v => (h.2 u v).symm⟩⟩

/-- C04 for the failing side: whether the cycle error is raised does not depend on iteration
order either (which cycle is named may). -/
theorem c04_failure_independent {G G' : Graph α} (hG : IsGraph G) (hG' : IsGraph G')
    (h : SameGraph G G') {s : α} (hs : Node G s) :
    (∃ c, orderGraph G s = .error (.cycle c)) ↔ ∃ c, orderGraph G' s = .error (.cycle c) := by
  have hs' := (h.1 s).1 hs
  have key : ∀ {G : Graph α}, IsGraph G → Node G s →
      ((∃ c, orderGraph G s = .error (.cycle c)) ↔ ¬ ∃ l, orderGraph G s = .ok l) := by
    intro G hG hs
    rcases orderGraph_weak hG hs with ⟨l, h1, -⟩ | ⟨c, h1, -⟩ <;> simp [h1]
  rw [key hG hs, key hG' hs']
  simp only [c04_order_independent hG hG' h]

/-- Same graph, other iteration orders. -/
def exGraph' : Graph Nat := [(5, []), (4, []), (3, [4, 1]), (1, []), (0, [2, 1]), (2, [4])]

example : orderGraph exGraph' 0 = .ok [0, 2, 4, 1, 3] := by decide
example : IsGraph exGraph' := isGraph_of_check (by decide)
example : SameGraph exGraph exGraph' := by
  refine ⟨fun u => ?_, fun u v => ?_⟩
  · simp only [Node, exGraph, exGraph', List.map_cons, List.map_nil, List.mem_cons]; tauto
  · simp only [Edge, exGraph, exGraph', List.mem_cons, Prod.mk.injEq, List.not_mem_nil]
    constructor
    · rintro ⟨es, (⟨rfl, rfl⟩ | ⟨rfl, rfl⟩ | ⟨rfl, rfl⟩ | ⟨rfl, rfl⟩ | ⟨rfl, rfl⟩ | ⟨rfl, rfl⟩ | h), hv⟩ <;>
        simp_all <;> tauto
    · rintro ⟨es, (⟨rfl, rfl⟩ | ⟨rfl, rfl⟩ | ⟨rfl, rfl⟩ | ⟨rfl, rfl⟩ | ⟨rfl, rfl⟩ | ⟨rfl, rfl⟩ | h), hv⟩ <;>
        simp_all <;> tauto

/-- C05 for `order_graph`: on a closed graph and any node as source the only outcomes are an
ordering or the documented cycle error with a genuine cycle.  In particular the loop bounds of the
model are never exceeded (termination), and neither `KeyError` nor the assertion occurs. -/
theorem c05_order_no_internal_error {G : Graph α} (hG : IsGraph G) {s : α} (hs : Node G s) :
    (∃ l, orderGraph G s = .ok l ∧ l.Nodup ∧ (∀ x ∈ l, Node G x) ∧ l.head? = some s) ∨
    (∃ c, orderGraph G s = .error (.cycle c) ∧
      (ClosedChain (Edge G) c ∨ ClosedChain (fun a b => Edge G b a) c)) :=
  orderGraph_weak hG hs

/-- C05 for `toposort`. -/
theorem c05_toposort_no_internal_error {G : Graph α} (hG : IsGraph G) :
    (∃ q, toposort G = .ok q) ∨ toposort G = .error .cycleDetected := by
  rcases toposort_spec hG with ⟨q, h, -⟩ | ⟨h, -⟩
  · exact Or.inl ⟨q, h⟩
  · exact Or.inr h

/-- C05 for `reverse_graph`: total on closed graphs and exactly the reversed (or symmetrised) graph. -/
theorem c05_reverse_graph {G : Graph α} (hG : IsGraph G) (union : Bool) :
    ∃ RG, reverseGraph G union = .ok RG ∧ IsGraph RG ∧ (∀ u, Node RG u ↔ Node G u) ∧
      ∀ u v, Edge RG u v ↔ Edge G v u ∨ (union = true ∧ Edge G u v) := by
  obtain ⟨RG, h1, h2, h3, h4⟩ := reverseGraph_spec hG union
  exact ⟨RG, h1, h2, fun u => by unfold Node; rw [h3], h4⟩

/-- The closedness hypothesis is needed: an edge to an unknown node is a lookup error. -/
theorem c05_open_graph_key_error : orderGraph [(0, [1])] 0 = .error (.keyError 1) := by decide

/-- C06: `toposort` returns a permutation of the nodes with references first ... -/
theorem c06_toposort_sorted {β : Type u} [DecidableEq β] {G : Graph β} (hG : IsGraph G) {q : List β} (h : toposort G = .ok q) :
    q.Perm (G.map Prod.fst) ∧ ∀ u v, Edge G u v → Before q v u := by
  rcases toposort_spec hG with ⟨q', h1, h2, h3, -⟩ | ⟨h1, -⟩
  · rw [h] at h1; cases h1
    refine ⟨h2, fun u v huv => ?_⟩
    have hu : u ∈ q := h2.mem_iff.2 (by
      obtain ⟨es, h4, -⟩ := huv; exact List.mem_map_of_mem (f := Prod.fst) h4)
    obtain ⟨l₁, l₂, rfl⟩ := List.append_of_mem hu
    exact before_append_mem (h3 l₁ u l₂ rfl v huv) (by simp)
  · rw [h] at h1; cases h1

/-- ... and fails exactly if there is a directed cycle. -/
theorem c06_toposort_fails_iff_cycle {β : Type u} [DecidableEq β] {G : Graph β} (hG : IsGraph G) :
    toposort G = .error .cycleDetected ↔ ∃ u, OnCycle G u := by
  rcases toposort_spec hG with ⟨q, h1, -, -, h2⟩ | ⟨h1, u, -, h2⟩
  · rw [h1]
    constructor
    · intro h; cases h
    · rintro ⟨u, hu⟩; exact absurd hu (h2 u)
  · exact ⟨fun _ => ⟨u, h2⟩, fun _ => h1⟩

example : toposort exGraph = .ok [1, 4, 5, 2, 3, 0] := by decide
example : toposort exCyclic = .error .cycleDetected := by decide
example : toposort [(0, [0])] = .error .cycleDetected := by decide

end Subsetter.Props
