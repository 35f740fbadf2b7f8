import Verif.Model.Py
import Mathlib.Order.Defs.LinearOrder
import Mathlib.Data.List.Sort

/-
Model of `/repo/subsetter/solver.py`.
-/
namespace Subsetter

/-- Exceptions leaving the solver.  `solver.py:11-20` plus the Python built-ins it can raise.
`fuel` is an artefact of the model (loop bound exceeded) and is proved unreachable. -/
inductive SolverErr (α : Type u) where
  /-- `KeyError` -/
  | keyError (k : α)
  /-- `AssertionError` (`solver.py:68`) -/
  | assertion
  /-- `ValueError("Cycle detected in graph")` (`solver.py:47`) -/
  | cycleDetected
  /-- `CycleException(cycle)` (`solver.py:17-20`) -/
  | cycle (c : List α)
  | fuel
  deriving DecidableEq, Repr

/-- `GraphT = Dict[NodeT, Set[NodeT]]` (`solver.py:5`). -/
abbrev Graph (α : Type u) := Dict α (List α)

section
variable {α : Type u} [DecidableEq α]

/-- `G[u]`.  `solver.py:40,70`. -/
def succs (G : Graph α) (u : α) : Except (SolverErr α) (List α) :=
  match dget G u with
  | none => .error (.keyError u)
  | some es => .ok es

/-- `RG[v].add(u)` (`solver.py:121`). -/
def addEdge (RG : Graph α) (v u : α) : Except (SolverErr α) (Graph α) :=
  match dget RG v with
  | none => .error (.keyError v)
  | some s => .ok (dset RG v (setAdd s u))

/-- Body of the inner loop `for v in edges` (`solver.py:120-121`). -/
def addEdges (u : α) : List α → Graph α → Except (SolverErr α) (Graph α)
  | [], RG => .ok RG
  | v :: es, RG =>
    match addEdge RG v u with
    | .error e => .error e
    | .ok RG' => addEdges u es RG'

/-- The outer loop `for u, edges in G.items()` (`solver.py:119-121`). -/
def revLoop : Graph α → Graph α → Except (SolverErr α) (Graph α)
  | [], RG => .ok RG
  | (u, es) :: G, RG =>
    match addEdges u es RG with
    | .error e => .error e
    | .ok RG' => revLoop G RG'

/-- `reverse_graph(G, union=...)` (`solver.py:110-122`). -/
def reverseGraph (G : Graph α) (union : Bool) : Except (SolverErr α) (Graph α) :=
  revLoop G (G.map fun p => (p.1, if union then p.2 else []))

/-- Inner loop of `toposort` (`solver.py:39-44`): decrement degrees of `vs`, collect the nodes
whose degree reaches zero in the order in which they are appended to `q`. -/
def kahnInner : List α → Dict α Int → List α → Except (SolverErr α) (Dict α Int × List α)
  | [], deg, new => .ok (deg, new)
  | v :: vs, deg, new =>
    match dget deg v with
    | none => .error (.keyError v)
    | some d => kahnInner vs (dset deg v (d - 1)) (if d - 1 = 0 then new ++ [v] else new)

/-- Outer loop of `toposort` (`solver.py:38-44`).  The list `q` of the code is `done ++ todo`:
`done` is the part already iterated over. -/
def kahnLoop (RG : Graph α) : Nat → Dict α Int → List α → List α → Except (SolverErr α) (List α)
  | _, _, done, [] => .ok done
  | 0, _, _, _ :: _ => .error .fuel
  | n + 1, deg, done, u :: todo =>
    match succs RG u with
    | .error e => .error e
    | .ok vs =>
      match kahnInner vs deg [] with
      | .error e => .error e
      | .ok (deg', new) => kahnLoop RG n deg' (done ++ [u]) (todo ++ new)

/-- `toposort(G)` (`solver.py:23-49`).  Fuel: every node is iterated over at most once. -/
def toposort (G : Graph α) : Except (SolverErr α) (List α) :=
  match reverseGraph G false with
  | .error e => .error e
  | .ok RG =>
    match kahnLoop RG G.length (G.map fun p => (p.1, (p.2.length : Int))) []
        ((G.filter fun p => p.2.isEmpty).map Prod.fst) with
    | .error e => .error e
    | .ok q => if q.length < G.length then .error .cycleDetected else .ok q

/-- Local variables of the inner `while` loop of `toposort_reachable` (`solver.py:65-76`).
`stk` is the Python list `stk` with its top first; an iterator is the list of elements it has
still to produce. -/
structure Dfs (α : Type u) where
  weight : Dict α Nat
  onStk : List α
  stk : List (α × List α)

/-- `weight[u] += k`.  `solver.py:76-103`. -/
def addWeight (w : Dict α Nat) (u : α) (k : Nat) : Except (SolverErr α) (Dict α Nat) :=
  match dget w u with
  | none => .error (.keyError u)
  | some x => .ok (dset w u (x + k))

/-- The loop collecting the cycle (`solver.py:92-97`): nodes from the top of the stack down to
and including `v`, in reverse. -/
def collectCycle (v : α) : List (α × List α) → List α → List α
  | [], cyc => cyc
  | (w, _) :: rest, cyc => if w = v then w :: cyc else collectCycle v rest (w :: cyc)

/-- One iteration of `while stk` (`solver.py:78-103`) with a non-empty stack. -/
def dfsStep (G : Graph α) (ignore : List α) (s : Dfs α) : Except (SolverErr α) (Dfs α) :=
  match s.stk with
  | [] => .ok s
  | (u, []) :: below =>
    -- StopIteration: stk.pop(); on_stk.remove(u); weight[parent] += weight[u]
    if u ∈ s.onStk then
      match below with
      | [] => .ok { s with onStk := s.onStk.filter (· ≠ u), stk := [] }
      | (p, it) :: below' =>
        match dget s.weight u with
        | none => .error (.keyError u)
        | some k =>
          match addWeight s.weight p k with
          | .error e => .error e
          | .ok w => .ok { weight := w, onStk := s.onStk.filter (· ≠ u), stk := (p, it) :: below' }
    else .error (.keyError u)
  | (u, v :: it) :: below =>
    if v ∈ ignore then .ok { s with stk := (u, it) :: below }
    else if v ∈ s.onStk then .error (.cycle (collectCycle v ((u, it) :: below) []))
    else
      match dget s.weight v with
      | some k =>
        match addWeight s.weight u k with
        | .error e => .error e
        | .ok w => .ok { s with weight := w, stk := (u, it) :: below }
      | none =>
        match succs G v with
        | .error e => .error e
        | .ok es =>
          .ok { weight := dset s.weight v 1, onStk := setAdd s.onStk v,
                stk := (v, es) :: (u, it) :: below }

/-- `while stk: ...` (`solver.py:78-103`). -/
def dfsLoop (G : Graph α) (ignore : List α) : Nat → Dfs α → Except (SolverErr α) (Dict α Nat)
  | n, s =>
    match s.stk with
    | [] => .ok s.weight
    | _ :: _ =>
      match n with
      | 0 => .error .fuel
      | n + 1 =>
        match dfsStep G ignore s with
        | .error e => .error e
        | .ok s' => dfsLoop G ignore n s'

/-- Number of loop iterations that always suffice: one per edge plus one per node.
`solver.py:78-103`. -/
def dfsFuel (G : Graph α) : Nat := (G.map fun p => p.2.length + 1).sum

/-- `for u in G[source_u]` (`solver.py:70-103`). -/
def reachFrom (G : Graph α) (ignore : List α) :
    List α → Dict α Nat → Except (SolverErr α) (Dict α Nat)
  | [], w => .ok w
  | u :: us, w =>
    if u ∈ ignore ∨ (dget w u).isSome then reachFrom G ignore us w
    else
      match succs G u with
      | .error e => .error e
      | .ok es =>
        match dfsLoop G ignore (dfsFuel G)
            { weight := dset w u 1, onStk := [u], stk := [(u, es)] } with
        | .error e => .error e
        | .ok w' => reachFrom G ignore us w'

/-- `for source_u in sources` (`solver.py:67-103`). -/
def reachSources (G : Graph α) (ignore : List α) :
    List α → Dict α Nat → Except (SolverErr α) (Dict α Nat)
  | [], w => .ok w
  | s :: ss, w =>
    if s ∈ ignore then
      match succs G s with
      | .error e => .error e
      | .ok us =>
        match reachFrom G ignore us w with
        | .error e => .error e
        | .ok w' => reachSources G ignore ss w'
    else .error .assertion
end

section
variable {α : Type u} [LinearOrder α]

/-- The order of `sorted(..., key=lambda x: (x[1], x[0]), reverse=True)` (`solver.py:105-107`). -/
def weightGe (a b : α × Nat) : Prop := b.2 < a.2 ∨ (b.2 = a.2 ∧ b.1 ≤ a.1)

instance : DecidableRel (weightGe (α := α)) := fun a b => by unfold weightGe; infer_instance

/-- `toposort_reachable(G, sources, ignore)` (`solver.py:52-107`).  Python's `sorted` is modelled
by insertion sort; keys are pairwise different so the result does not depend on the algorithm. -/
def toposortReachable (G : Graph α) (sources ignore : List α) : Except (SolverErr α) (List α) :=
  match reachSources G ignore sources [] with
  | .error e => .error e
  | .ok w => .ok ((w.insertionSort weightGe).map Prod.fst)

/-- `while H: ...` of `order_graph` (`solver.py:162-166`).  `G` and `RG` are swapped in every
iteration. -/
def orderLoop : Nat → Graph α → Graph α → List α → List α → List α → Except (SolverErr α) (List α)
  | _, _, _, [], _, result => .ok result
  | 0, _, _, _ :: _, _, _ => .error .fuel
  | n + 1, G, RG, h :: hs, vis, result =>
    match toposortReachable G (h :: hs) vis with
    | .error e => .error e
    | .ok H => orderLoop n RG G H (setUnion vis H) (result ++ H)

/-- `order_graph(G, source)` (`solver.py:125-168`). -/
def orderGraph (G : Graph α) (source : α) : Except (SolverErr α) (List α) :=
  match reverseGraph G false with
  | .error e => .error e
  | .ok RG =>
    match succs G source with
    | .error e => .error e
    | .ok out =>
      if out.isEmpty then orderLoop (G.length + 1) RG G [source] [source] [source]
      else orderLoop (G.length + 1) G RG [source] [source] [source]
end

end Subsetter
