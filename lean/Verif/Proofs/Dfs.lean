import Verif.Model.Solver
import Verif.Spec.Graph
import Verif.Proofs.PyDict
import Mathlib.Tactic.Common
import Mathlib.Algebra.Order.Group.Nat

/- The depth-first search of `toposort_reachable`: invariants, termination, result. -/
namespace Subsetter
open Spec

section
variable {α : Type u} [DecidableEq α]

/-- Successors of `u` (empty if `u` is not a node). -/
def nbr (G : Graph α) (u : α) : List α := (dget G u).getD []

/-- Weight of `u` (0 if absent). -/
def wt (w : Dict α Nat) (u : α) : Nat := (dget w u).getD 0

theorem edge_iff_nbr {G : Graph α} (hG : (G.map Prod.fst).Nodup) {u v : α} :
    Edge G u v ↔ v ∈ nbr G u := by
  unfold Edge nbr
  constructor
  · rintro ⟨es, h1, h2⟩; rw [dget_of_mem hG h1]; exact h2
  · intro h
    cases h1 : dget G u with
    | none => rw [h1] at h; simp at h
    | some es => rw [h1] at h; exact ⟨es, dget_some_mem h1, h⟩

theorem succs_of_node {G : Graph α} {u : α} (h : Node G u) : succs G u = .ok (nbr G u) := by
  unfold Node at h
  obtain ⟨v, hv⟩ := mem_keys_iff.1 h
  simp [succs, nbr, hv]

theorem wt_dset (w : Dict α Nat) (u : α) (k : Nat) (x : α) :
    wt (dset w u k) x = if u = x then k else wt w x := by
  unfold wt; rw [dget_dset]; split <;> rfl

theorem isSome_dset (w : Dict α Nat) (u : α) (k : Nat) (x : α) :
    (dget (dset w u k) x).isSome ↔ x = u ∨ (dget w x).isSome := by
  rw [dget_dset]; split
  · next h => simp [h]
  · next h => simp [Ne.symm h]

theorem addWeight_ok {w : Dict α Nat} {u : α} (k : Nat) (h : (dget w u).isSome) :
    addWeight w u k = .ok (dset w u (wt w u + k)) := by
  obtain ⟨x, hx⟩ := Option.isSome_iff_exists.1 h
  simp [addWeight, wt, hx]

/-- Children `d` of `p` not in `ig` have been completed and `p`'s weight accounts for them. -/
def FrameOK (ig : List α) (w : Dict α Nat) (S : List α) (p : α) (d : List α) : Prop :=
  (∀ c ∈ d, c ∉ ig → (dget w c).isSome ∧ c ∉ S) ∧
  wt w p = 1 + ((d.filter (· ∉ ig)).map (wt w)).sum

/-- Invariant of the stack frames; `extra` is the child in progress. -/
def StkOK (G : Graph α) (ig : List α) (w : Dict α Nat) (S : List α) :
    List α → List (α × List α) → Prop
  | _, [] => True
  | extra, (p, rest) :: below =>
    (∃ d, nbr G p = d ++ (extra ++ rest) ∧ FrameOK ig w S p d) ∧ StkOK G ig w S [p] below

theorem FrameOK.transfer {ig : List α} {w w' : Dict α Nat} {S S' : List α} {p : α} {d : List α}
    (h : FrameOK ig w S p d)
    (hc : ∀ c ∈ d, c ∉ ig → (dget w c).isSome → c ∉ S →
      (dget w' c).isSome ∧ c ∉ S' ∧ wt w' c = wt w c)
    (hp : wt w' p = wt w p) : FrameOK ig w' S' p d := by
  refine ⟨fun c hcd hci => ?_, ?_⟩
  · obtain ⟨h1, h2⟩ := h.1 c hcd hci
    obtain ⟨h3, h4, -⟩ := hc c hcd hci h1 h2
    exact ⟨h3, h4⟩
  · rw [hp, h.2]
    congr 2
    apply List.map_congr_left
    intro c hcm
    have hcm' := List.mem_filter.1 hcm
    have hci : c ∉ ig := by simpa using hcm'.2
    obtain ⟨h1, h2⟩ := h.1 c hcm'.1 hci
    exact (hc c hcm'.1 hci h1 h2).2.2.symm

theorem StkOK.transfer {G : Graph α} {ig : List α} {w w' : Dict α Nat} {S S' : List α}
    {extra : List α} {fs : List (α × List α)} (h : StkOK G ig w S extra fs)
    (hc : ∀ c, c ∉ ig → (dget w c).isSome → c ∉ S →
      (dget w' c).isSome ∧ c ∉ S' ∧ wt w' c = wt w c)
    (hp : ∀ p ∈ fs.map Prod.fst, wt w' p = wt w p) : StkOK G ig w' S' extra fs := by
  induction fs generalizing extra with
  | nil => trivial
  | cons f fs ih =>
    obtain ⟨p, rest⟩ := f
    obtain ⟨⟨d, hd, hf⟩, hrest⟩ := h
    refine ⟨⟨d, hd, hf.transfer (fun c _ => hc c) (hp p (by simp))⟩, ih hrest ?_⟩
    intro q hq
    exact hp q (by simp only [List.map_cons, List.mem_cons]; exact Or.inr hq)

/-- Invariant of the `while stk` loop.  `P` is any predicate closed under edges avoiding `ig`. -/
structure DInv (G : Graph α) (ig : List α) (P : α → Prop) (s : Dfs α) : Prop where
  onstk : ∀ x, x ∈ s.onStk ↔ x ∈ s.stk.map Prod.fst
  nodup : (s.stk.map Prod.fst).Nodup
  wnd : (s.weight.map Prod.fst).Nodup
  stkw : ∀ x ∈ s.stk.map Prod.fst, (dget s.weight x).isSome
  good : ∀ x, (dget s.weight x).isSome → x ∉ ig ∧ Node G x ∧ P x
  fin : ∀ x, (dget s.weight x).isSome → x ∉ s.stk.map Prod.fst →
    FrameOK ig s.weight (s.stk.map Prod.fst) x (nbr G x)
  frames : StkOK G ig s.weight (s.stk.map Prod.fst) [] s.stk

/-- All entries are complete. -/
structure Done (G : Graph α) (ig : List α) (P : α → Prop) (w : Dict α Nat) : Prop where
  wnd : (w.map Prod.fst).Nodup
  good : ∀ x, (dget w x).isSome → x ∉ ig ∧ Node G x ∧ P x
  fin : ∀ x, (dget w x).isSome → FrameOK ig w [] x (nbr G x)

/-- Bound on the remaining iterations. -/
def undisc (G : Graph α) (w : Dict α Nat) : Nat :=
  (G.map fun p => if (dget w p.1).isSome then 0 else p.2.length + 1).sum

def pot (G : Graph α) (s : Dfs α) : Nat :=
  (s.stk.map fun f => f.2.length + 1).sum + undisc G s.weight

theorem undisc_congr {G : Graph α} {w w' : Dict α Nat}
    (h : ∀ x, (dget w x).isSome = (dget w' x).isSome) : undisc G w = undisc G w' := by
  unfold undisc
  congr 1
  apply List.map_congr_left
  intro p _
  rw [h]

theorem undisc_push {G : Graph α} (hG : (G.map Prod.fst).Nodup) {w : Dict α Nat} {v : α} {k : Nat}
    (hv : Node G v) (hw : ¬ (dget w v).isSome) :
    undisc G w = (nbr G v).length + 1 + undisc G (dset w v k) := by
  induction G with
  | nil => simp [Node] at hv
  | cons p G ih =>
    obtain ⟨x, es⟩ := p
    simp only [List.map_cons, List.nodup_cons] at hG
    unfold undisc at ih ⊢
    simp only [List.map_cons, List.sum_cons]
    by_cases hx : x = v
    · subst hx
      have h1 : nbr ((x, es) :: G) x = es := by simp [nbr, dget_cons]
      rw [h1]
      have h2 : (dget (dset w x k) x).isSome := by simp
      rw [if_neg hw, if_pos h2]
      have : (G.map fun p => if (dget w p.1).isSome then 0 else p.2.length + 1)
          = (G.map fun p => if (dget (dset w x k) p.1).isSome then 0 else p.2.length + 1) := by
        apply List.map_congr_left
        intro q hq
        have hne : x ≠ q.1 := by
          rintro rfl
          exact hG.1 (List.mem_map_of_mem (f := Prod.fst) hq)
        rw [dget_dset_ne _ _ hne]
      rw [this]; omega
    · have h1 : nbr ((x, es) :: G) v = nbr G v := by simp [nbr, dget_cons, hx]
      have hv' : Node G v := by
        unfold Node at hv ⊢
        simp only [List.map_cons, List.mem_cons] at hv
        exact hv.resolve_left (Ne.symm hx)
      rw [h1, ih hG.2 hv', dget_dset_ne _ _ (Ne.symm hx)]
      omega

theorem undisc_le_fuel (G : Graph α) (w : Dict α Nat) : undisc G w ≤ dfsFuel G := by
  unfold undisc dfsFuel
  induction G with
  | nil => simp
  | cons p G ih =>
    simp only [List.map_cons, List.sum_cons]
    split <;> omega

/-- Consecutive stack nodes (bottom to top) are joined by edges. -/
theorem collectCycle_chain {G : Graph α} (hG : (G.map Prod.fst).Nodup) {ig : List α}
    {w : Dict α Nat} {S : List α} {v : α} :
    ∀ (fs : List (α × List α)) (cyc : List α) (extra : List α),
    StkOK G ig w S extra fs → v ∈ fs.map Prod.fst →
    List.IsChain (Edge G) (cyc ++ [v]) →
    (∀ c ∈ (cyc ++ [v]).head?, ∀ f ∈ fs.head?, Edge G f.1 c) →
    ∃ c', collectCycle v fs cyc = v :: c' ∧ List.IsChain (Edge G) ((v :: c') ++ [v]) ∧
      ∀ x ∈ v :: c', x ∈ cyc ∨ x ∈ fs.map Prod.fst := by
  intro fs
  induction fs with
  | nil => intro _ _ _ h; simp at h
  | cons f fs ih =>
    obtain ⟨p, rest⟩ := f
    intro cyc extra hs hv hch hhd
    simp only [collectCycle]
    have hch' : List.IsChain (Edge G) ((p :: cyc) ++ [v]) := by
      rw [List.cons_append]
      cases hc : cyc ++ [v] with
      | nil => simp at hc
      | cons c cs =>
        rw [hc] at hch
        refine List.IsChain.cons_cons ?_ hch
        exact hhd c (by rw [hc]; rfl) (p, rest) rfl
    split
    · next h =>
      subst h
      exact ⟨cyc, rfl, hch', fun x hx => by
        rcases List.mem_cons.1 hx with rfl | h
        · right; simp
        · exact Or.inl h⟩
    · next h =>
      have hv' : v ∈ fs.map Prod.fst := by
        simp only [List.map_cons, List.mem_cons] at hv
        exact hv.resolve_left (Ne.symm h)
      obtain ⟨-, hs'⟩ := hs
      have := ih (p :: cyc) [p] hs' hv' hch' ?_
      · obtain ⟨c', h1, h2, h3⟩ := this
        refine ⟨c', h1, h2, fun x hx => ?_⟩
        rcases h3 x hx with h | h
        · rcases List.mem_cons.1 h with rfl | h
          · right; simp
          · exact Or.inl h
        · right
          simp only [List.map_cons, List.mem_cons]
          exact Or.inr h
      · intro c hc f hf
        simp only [List.cons_append, List.head?_cons, Option.mem_some_iff] at hc
        subst hc
        cases fs with
        | nil => simp at hf
        | cons g gs =>
          simp only [List.head?_cons, Option.mem_some_iff] at hf
          subst hf
          obtain ⟨q, rq⟩ := g
          obtain ⟨⟨d, hd, -⟩, -⟩ := hs'
          rw [edge_iff_nbr hG]
          rw [hd]; simp

/-- What the search reports when it fails. -/
def CycleReport (G : Graph α) (ig : List α) (P : α → Prop) (e : SolverErr α) : Prop :=
  ∃ c, e = .cycle c ∧ ClosedChain (Edge G) c ∧ ∀ x ∈ c, x ∉ ig ∧ Node G x ∧ P x

theorem dfsStep_spec {G : Graph α} (hG : IsGraph G) {ig : List α} {P : α → Prop}
    (hP : ∀ x y, P x → Edge G x y → y ∉ ig → P y) {s : Dfs α} (hs : DInv G ig P s)
    (hne : s.stk ≠ []) :
    match dfsStep G ig s with
    | .ok s' => DInv G ig P s' ∧ pot G s' + 1 = pot G s ∧
        ∀ x, (dget s.weight x).isSome → (dget s'.weight x).isSome
    | .error e => CycleReport G ig P e := by
  have hGn := hG.keys_nodup
  obtain ⟨w, onStk, stk⟩ := s
  obtain ⟨honstk, hnodup, hwnd, hstkw, hgood, hfin, hframes⟩ := hs
  simp only at *
  match stk, hne with
  | (u, []) :: below, _ =>
    have hu : u ∈ onStk := (honstk u).2 (by simp)
    simp only [dfsStep, hu, if_true]
    have hfr := hframes.1
    obtain ⟨d, hd, hfd⟩ := hfr
    simp only [List.append_nil] at hd
    have huw := hstkw u (by simp)
    match below with
    | [] =>
      simp only
      refine ⟨⟨?_, by simp, hwnd, by simp, hgood, ?_, trivial⟩, ?_, fun x h => h⟩
      · intro x
        simp only [List.map_nil, List.not_mem_nil, iff_false, List.mem_filter, not_and,
          decide_not, Bool.not_eq_true', decide_eq_false_iff_not, not_not]
        intro hx
        have := (honstk x).1 hx
        simpa using this
      · intro x hx _
        by_cases hxu : x = u
        · subst hxu; rw [hd]
          exact hfd.transfer (fun c _ _ h1 _ => ⟨h1, by simp, rfl⟩) rfl
        · exact (hfin x hx (by simpa using hxu)).transfer (fun c _ _ h1 _ => ⟨h1, by simp, rfl⟩) rfl
      · simp [pot]; omega
    | (p, it) :: below' =>
      simp only
      obtain ⟨k, hk⟩ := Option.isSome_iff_exists.1 huw
      have hpw := hstkw p (by simp)
      simp only [hk, addWeight_ok k hpw]
      have hwk : wt w u = k := by simp [wt, hk]
      simp only [List.map_cons, List.nodup_cons, List.mem_cons, not_or] at hnodup
      obtain ⟨⟨hup, hub⟩, hpb, hbn⟩ := hnodup
      have hui : u ∉ ig := (hgood u huw).1
      -- weights of nodes other than `p` are unchanged
      have hwt : ∀ c, c ≠ p → wt (dset w p (wt w p + k)) c = wt w c := by
        intro c hc; rw [wt_dset, if_neg (Ne.symm hc)]
      have hsome : ∀ c, (dget w c).isSome → (dget (dset w p (wt w p + k)) c).isSome := by
        intro c hc; exact (isSome_dset ..).2 (Or.inr hc)
      have hsome' : ∀ c, (dget (dset w p (wt w p + k)) c).isSome → (dget w c).isSome := by
        intro c hc
        rcases (isSome_dset ..).1 hc with rfl | h
        · exact hpw
        · exact h
      have htr : ∀ c, c ∉ ig → (dget w c).isSome → c ∉ u :: p :: below'.map Prod.fst →
          (dget (dset w p (wt w p + k)) c).isSome ∧ c ∉ p :: below'.map Prod.fst ∧
          wt (dset w p (wt w p + k)) c = wt w c := by
        intro c _ h1 h2
        simp only [List.mem_cons, not_or] at h2 ⊢
        exact ⟨hsome c h1, ⟨h2.2.1, h2.2.2⟩, hwt c h2.2.1⟩
      refine ⟨⟨?_, ?_, dset_nodup hwnd _ _, ?_, ?_, ?_, ?_⟩, ?_, hsome⟩
      · intro x
        simp only [List.mem_filter, decide_not, Bool.not_eq_true', decide_eq_false_iff_not,
          honstk, List.map_cons, List.mem_cons]
        constructor
        · rintro ⟨h | h, hne⟩
          · exact absurd h hne
          · exact h
        · intro h
          refine ⟨Or.inr h, ?_⟩
          rintro rfl
          rcases h with h | h
          · exact hup h
          · exact hub h
      · simp only [List.map_cons, List.nodup_cons]; exact ⟨hpb, hbn⟩
      · intro x hx
        exact hsome x (hstkw x (by
          simp only [List.map_cons, List.mem_cons] at hx ⊢; exact Or.inr hx))
      · intro x hx; exact hgood x (hsome' x hx)
      · intro x hx hxS
        simp only [List.map_cons, List.mem_cons, not_or] at hxS
        by_cases hxu : x = u
        · subst hxu; rw [hd]
          exact hfd.transfer (fun c _ => by simpa using htr c) (hwt x hup)
        · refine (hfin x (hsome' x hx) ?_).transfer (fun c _ => by simpa using htr c) (hwt x hxS.1)
          simp only [List.map_cons, List.mem_cons, not_or]
          exact ⟨hxu, hxS.1, hxS.2⟩
      · obtain ⟨-, ⟨d', hd', hfd'⟩, hrest⟩ := hframes
        refine ⟨⟨d' ++ [u], by simpa using hd', ?_⟩, ?_⟩
        · refine ⟨?_, ?_⟩
          · intro c hc hci
            rcases List.mem_append.1 hc with hc | hc
            · obtain ⟨h1, h2⟩ := hfd'.1 c hc hci
              obtain ⟨h3, h4, -⟩ := htr c hci h1 (by simpa using h2)
              exact ⟨h3, by simpa using h4⟩
            · simp only [List.mem_singleton] at hc
              subst hc
              refine ⟨hsome _ huw, ?_⟩
              simp only [List.map_cons, List.mem_cons, not_or]
              exact ⟨hup, hub⟩
          · rw [wt_dset, if_pos rfl, hfd'.2]
            rw [List.filter_append, List.map_append, List.sum_append]
            have h1 : (([u].filter (· ∉ ig)).map (wt (dset w p (wt w p + k)))).sum = k := by
              simp [hui, hwt u hup, hwk]
            have h2 : ((d'.filter (· ∉ ig)).map (wt (dset w p (wt w p + k))))
                = ((d'.filter (· ∉ ig)).map (wt w)) := by
              apply List.map_congr_left
              intro c hcm
              have hcm' := List.mem_filter.1 hcm
              have hci : c ∉ ig := by simpa using hcm'.2
              obtain ⟨h3, h4⟩ := hfd'.1 c hcm'.1 hci
              exact (htr c hci h3 (by simpa using h4)).2.2
            rw [hfd'.2] at h1 h2
            rw [h1, h2]; omega
        · refine hrest.transfer (fun c => by simpa using htr c) ?_
          intro q hq
          exact hwt q (by rintro rfl; exact hpb hq)
      · have : undisc G (dset w p (wt w p + k)) = undisc G w :=
          undisc_congr fun x => by
            rw [Bool.eq_iff_iff]; exact ⟨hsome' x, hsome x⟩
        simp only [pot, List.map_cons, List.sum_cons, this, List.length_nil]
        omega
  | (u, v :: it) :: below, _ =>
    have huw := hstkw u (by simp)
    have hPu : P u := (hgood u huw).2.2
    obtain ⟨⟨d, hd, hfd⟩, hrest⟩ := hframes
    simp only [List.nil_append] at hd
    have huv : Edge G u v := by
      rw [edge_iff_nbr hGn, hd]; simp
    simp only [dfsStep]
    by_cases hvi : v ∈ ig
    · rw [if_pos hvi]
      refine ⟨⟨honstk, hnodup, hwnd, hstkw, hgood, hfin, ⟨⟨d ++ [v], by simpa using hd, ?_⟩, hrest⟩⟩,
        ?_, fun x h => h⟩
      · refine ⟨?_, ?_⟩
        · intro c hc hci
          rcases List.mem_append.1 hc with hc | hc
          · exact hfd.1 c hc hci
          · simp only [List.mem_singleton] at hc; subst hc; exact absurd hvi hci
        · rw [hfd.2, List.filter_append]
          simp [hvi]
      · simp only [pot, List.map_cons, List.sum_cons, List.length_cons]; omega
    · rw [if_neg hvi]
      by_cases hvs : v ∈ onStk
      · rw [if_pos hvs]
        -- cycle
        have hvs' := (honstk v).1 hvs
        have hframes' : StkOK G ig w (u :: below.map Prod.fst) [v] ((u, it) :: below) := by
          refine ⟨⟨d, by simpa using hd, by simpa using hfd⟩, by simpa using hrest⟩
        obtain ⟨c', h1, h2, h3⟩ := collectCycle_chain hGn ((u, it) :: below) [] [v] hframes'
          (by simpa using hvs') (by simp) (by
            intro c hc f hf
            simp at hc hf; subst hc; subst hf; exact huv)
        refine ⟨v :: c', by rw [h1], h2, ?_⟩
        intro x hx
        rcases h3 x hx with h | h
        · simp at h
        · exact hgood x (hstkw x (by simpa using h))
      · rw [if_neg hvs]
        have hvS : v ∉ u :: below.map Prod.fst := by
          intro h; exact hvs ((honstk v).2 (by simpa using h))
        have huS : u ∉ below.map Prod.fst := by
          simp only [List.map_cons, List.nodup_cons] at hnodup; exact hnodup.1
        cases hk : dget w v with
        | some k =>
          simp only
          rw [addWeight_ok k huw]
          simp only
          have hwk : wt w v = k := by simp [wt, hk]
          have hwt : ∀ c, c ≠ u → wt (dset w u (wt w u + k)) c = wt w c := by
            intro c hc; rw [wt_dset, if_neg (Ne.symm hc)]
          have hsome : ∀ c, (dget w c).isSome → (dget (dset w u (wt w u + k)) c).isSome := by
            intro c hc; exact (isSome_dset ..).2 (Or.inr hc)
          have hsome' : ∀ c, (dget (dset w u (wt w u + k)) c).isSome → (dget w c).isSome := by
            intro c hc
            rcases (isSome_dset ..).1 hc with rfl | h
            · exact huw
            · exact h
          have htr : ∀ c, c ∉ ig → (dget w c).isSome → c ∉ u :: below.map Prod.fst →
              (dget (dset w u (wt w u + k)) c).isSome ∧ c ∉ u :: below.map Prod.fst ∧
              wt (dset w u (wt w u + k)) c = wt w c := by
            intro c _ h1 h2
            refine ⟨hsome c h1, h2, hwt c ?_⟩
            simp only [List.mem_cons, not_or] at h2; exact h2.1
          refine ⟨⟨honstk, hnodup, dset_nodup hwnd _ _, ?_, ?_, ?_, ⟨⟨d ++ [v], by simpa using hd, ?_⟩, ?_⟩⟩,
            ?_, hsome⟩
          · intro x hx; exact hsome x (hstkw x hx)
          · intro x hx; exact hgood x (hsome' x hx)
          · intro x hx hxS
            refine (hfin x (hsome' x hx) hxS).transfer (fun c _ => by simpa using htr c) (hwt x ?_)
            simp only [List.map_cons, List.mem_cons, not_or] at hxS; exact hxS.1
          · have hvs : (dget w v).isSome := by rw [hk]; rfl
            have hvu : v ≠ u := by simp only [List.mem_cons, not_or] at hvS; exact hvS.1
            refine ⟨?_, ?_⟩
            · intro c hc hci
              rcases List.mem_append.1 hc with hc | hc
              · obtain ⟨h1, h2⟩ := hfd.1 c hc hci
                exact ⟨hsome c h1, h2⟩
              · simp only [List.mem_singleton] at hc
                subst hc
                exact ⟨hsome _ hvs, by simpa using hvS⟩
            · rw [wt_dset, if_pos rfl, hfd.2]
              rw [List.filter_append, List.map_append, List.sum_append]
              have h1 : (([v].filter (· ∉ ig)).map (wt (dset w u (wt w u + k)))).sum = k := by
                simp [hvi, hwt v hvu, hwk]
              have h2 : ((d.filter (· ∉ ig)).map (wt (dset w u (wt w u + k))))
                  = ((d.filter (· ∉ ig)).map (wt w)) := by
                apply List.map_congr_left
                intro c hcm
                have hcm' := List.mem_filter.1 hcm
                have hci : c ∉ ig := by simpa using hcm'.2
                obtain ⟨h3, h4⟩ := hfd.1 c hcm'.1 hci
                exact (htr c hci h3 (by simpa using h4)).2.2
              rw [hfd.2] at h1 h2
              rw [h1, h2]; omega
          · refine hrest.transfer (fun c => by simpa using htr c) ?_
            intro q hq
            exact hwt q (by rintro rfl; exact huS hq)
          · have : undisc G (dset w u (wt w u + k)) = undisc G w :=
              undisc_congr fun x => by
                rw [Bool.eq_iff_iff]; exact ⟨hsome' x, hsome x⟩
            simp only [pot, List.map_cons, List.sum_cons, this, List.length_cons]
            omega
        | none =>
          simp only
          have hvN : Node G v := hG.closed u v huv
          rw [succs_of_node hvN]
          simp only
          have hvw : ¬ (dget w v).isSome := by rw [hk]; simp
          have hwt : ∀ c, c ≠ v → wt (dset w v 1) c = wt w c := by
            intro c hc; rw [wt_dset, if_neg (Ne.symm hc)]
          have hsome : ∀ c, (dget w c).isSome → (dget (dset w v 1) c).isSome := by
            intro c hc; exact (isSome_dset ..).2 (Or.inr hc)
          have hnv : ∀ c, (dget w c).isSome → c ≠ v := by
            rintro c hc rfl; exact hvw hc
          have htr : ∀ c, c ∉ ig → (dget w c).isSome → c ∉ u :: below.map Prod.fst →
              (dget (dset w v 1) c).isSome ∧ c ∉ v :: u :: below.map Prod.fst ∧
              wt (dset w v 1) c = wt w c := by
            intro c _ h1 h2
            refine ⟨hsome c h1, ?_, hwt c (hnv c h1)⟩
            rw [List.mem_cons, not_or]; exact ⟨hnv c h1, h2⟩
          refine ⟨⟨?_, ?_, dset_nodup hwnd _ _, ?_, ?_, ?_, ⟨⟨[], by simp, ?_⟩, ⟨d, by simpa using hd, ?_⟩, ?_⟩⟩,
            ?_, hsome⟩
          · intro x
            simp only [mem_setAdd, honstk, List.map_cons, List.mem_cons]
            tauto
          · simp only [List.map_cons, List.nodup_cons] at hnodup ⊢
            exact ⟨hvS, hnodup⟩
          · intro x hx
            simp only [List.map_cons, List.mem_cons] at hx
            rcases hx with rfl | hx
            · simp
            · exact hsome x (hstkw x (by simpa using hx))
          · intro x hx
            rcases (isSome_dset ..).1 hx with rfl | h
            · exact ⟨hvi, hvN, hP u x hPu huv hvi⟩
            · exact hgood x h
          · intro x hx hxS
            simp only [List.map_cons, List.mem_cons, not_or] at hxS
            have hxw := ((isSome_dset ..).1 hx).resolve_left hxS.1
            refine (hfin x hxw ?_).transfer (fun c _ => by simpa using htr c) (hwt x hxS.1)
            simp only [List.map_cons, List.mem_cons, not_or]; exact hxS.2
          · refine ⟨by simp, ?_⟩
            rw [wt_dset]; simp
          · exact hfd.transfer (fun c _ => by simpa using htr c) (hwt u (hnv u huw))
          · refine hrest.transfer (fun c => by simpa using htr c) ?_
            intro q hq
            exact hwt q (hnv q (hstkw q (by simp only [List.map_cons, List.mem_cons]; exact Or.inr hq)))
          · have := undisc_push hGn (k := 1) hvN hvw
            simp only [pot, List.map_cons, List.sum_cons, List.length_cons, this]
            omega

theorem dfsLoop_spec {G : Graph α} (hG : IsGraph G) {ig : List α} {P : α → Prop}
    (hP : ∀ x y, P x → Edge G x y → y ∉ ig → P y) :
    ∀ (n : Nat) (s : Dfs α), DInv G ig P s → pot G s ≤ n →
    match dfsLoop G ig n s with
    | .ok w => Done G ig P w ∧ ∀ x, (dget s.weight x).isSome → (dget w x).isSome
    | .error e => CycleReport G ig P e := by
  intro n
  induction n with
  | zero =>
    intro s hs hpot
    unfold dfsLoop
    match hstk : s.stk with
    | [] =>
      simp only
      refine ⟨⟨hs.wnd, hs.good, fun x hx => ?_⟩, fun x h => h⟩
      have := hs.fin x hx (by simp [hstk])
      rwa [hstk] at this
    | f :: fs =>
      exfalso
      unfold pot at hpot
      rw [hstk] at hpot
      simp at hpot
  | succ n ih =>
    intro s hs hpot
    unfold dfsLoop
    match hstk : s.stk with
    | [] =>
      simp only
      refine ⟨⟨hs.wnd, hs.good, fun x hx => ?_⟩, fun x h => h⟩
      have := hs.fin x hx (by simp [hstk])
      rwa [hstk] at this
    | f :: fs =>
      simp only
      have hstep := dfsStep_spec hG hP hs (by rw [hstk]; simp)
      cases hd : dfsStep G ig s with
      | error e => rw [hd] at hstep; simpa using hstep
      | ok s' =>
        rw [hd] at hstep
        simp only at hstep ⊢
        have := ih s' hstep.1 (by omega)
        cases hl : dfsLoop G ig n s' with
        | error e => rw [hl] at this; simpa using this
        | ok w =>
          rw [hl] at this
          simp only at this ⊢
          exact ⟨this.1, fun x hx => this.2 x (hstep.2.2 x hx)⟩

theorem reachFrom_spec {G : Graph α} (hG : IsGraph G) {ig : List α} {P : α → Prop}
    (hP : ∀ x y, P x → Edge G x y → y ∉ ig → P y) :
    ∀ (us : List α) (w : Dict α Nat), Done G ig P w →
      (∀ u ∈ us, Node G u) → (∀ u ∈ us, u ∉ ig → P u) →
    match reachFrom G ig us w with
    | .ok w' => Done G ig P w' ∧ (∀ x, (dget w x).isSome → (dget w' x).isSome) ∧
        ∀ u ∈ us, u ∉ ig → (dget w' u).isSome
    | .error e => CycleReport G ig P e := by
  intro us
  induction us with
  | nil =>
    intro w hw _ _
    exact ⟨hw, fun x h => h, by simp⟩
  | cons u us ih =>
    intro w hw hN hPu
    unfold reachFrom
    by_cases h : u ∈ ig ∨ (dget w u).isSome
    · rw [if_pos h]
      have := ih w hw (fun x hx => hN x (List.mem_cons_of_mem _ hx))
        (fun x hx => hPu x (List.mem_cons_of_mem _ hx))
      cases hr : reachFrom G ig us w with
      | error e => rw [hr] at this; simpa using this
      | ok w' =>
        rw [hr] at this
        simp only at this ⊢
        refine ⟨this.1, this.2.1, ?_⟩
        intro x hx hxi
        rcases List.mem_cons.1 hx with rfl | hx
        · exact this.2.1 x (h.resolve_left hxi)
        · exact this.2.2 x hx hxi
    · rw [if_neg h]
      simp only [not_or] at h
      obtain ⟨hui, huw⟩ := h
      have huN := hN u (by simp)
      rw [succs_of_node huN]
      simp only
      have hwt : ∀ c, c ≠ u → wt (dset w u 1) c = wt w c := by
        intro c hc; rw [wt_dset, if_neg (Ne.symm hc)]
      have hsome : ∀ c, (dget w c).isSome → (dget (dset w u 1) c).isSome := by
        intro c hc; exact (isSome_dset ..).2 (Or.inr hc)
      have hnu : ∀ c, (dget w c).isSome → c ≠ u := by
        rintro c hc rfl; exact huw hc
      have hinv : DInv G ig P
          { weight := dset w u 1, onStk := [u], stk := [(u, nbr G u)] } := by
        refine ⟨by simp, by simp, dset_nodup hw.wnd _ _, by simp, ?_, ?_,
          ⟨⟨[], by simp, ⟨by simp, by simp [wt_dset]⟩⟩, trivial⟩⟩
        · intro x hx
          rcases (isSome_dset ..).1 hx with rfl | h
          · exact ⟨hui, huN, hPu x (by simp) hui⟩
          · exact hw.good x h
        · intro x hx hxS
          simp only [List.map_cons, List.map_nil, List.mem_singleton] at hxS
          have hxw := ((isSome_dset ..).1 hx).resolve_left hxS
          refine (hw.fin x hxw).transfer ?_ (hwt x hxS)
          intro c _ _ h1 _
          refine ⟨hsome c h1, ?_, hwt c (hnu c h1)⟩
          simp only [List.map_cons, List.map_nil, List.mem_singleton]; exact hnu c h1
      have hpot : pot G { weight := dset w u 1, onStk := [u], stk := [(u, nbr G u)] } ≤ dfsFuel G := by
        have h1 := undisc_push hG.keys_nodup (k := 1) huN huw
        have h2 := undisc_le_fuel G w
        simp only [pot, List.map_cons, List.map_nil, List.sum_cons, List.sum_nil]
        omega
      have hl := dfsLoop_spec hG hP (dfsFuel G) _ hinv hpot
      cases hd : dfsLoop G ig (dfsFuel G)
          { weight := dset w u 1, onStk := [u], stk := [(u, nbr G u)] } with
      | error e => rw [hd] at hl; simpa using hl
      | ok w₁ =>
        rw [hd] at hl
        simp only at hl ⊢
        have := ih w₁ hl.1 (fun x hx => hN x (List.mem_cons_of_mem _ hx))
          (fun x hx => hPu x (List.mem_cons_of_mem _ hx))
        cases hr : reachFrom G ig us w₁ with
        | error e => rw [hr] at this; simpa using this
        | ok w' =>
          rw [hr] at this
          simp only at this ⊢
          refine ⟨this.1, fun x hx => this.2.1 x (hl.2 x (hsome x hx)), ?_⟩
          intro x hx hxi
          rcases List.mem_cons.1 hx with rfl | hx
          · exact this.2.1 x (hl.2 x (by simp))
          · exact this.2.2 x hx hxi

theorem reachSources_spec {G : Graph α} (hG : IsGraph G) {ig : List α} {P : α → Prop}
    (hP : ∀ x y, P x → Edge G x y → y ∉ ig → P y) :
    ∀ (ss : List α) (w : Dict α Nat), Done G ig P w →
      (∀ s ∈ ss, Node G s) → (∀ s ∈ ss, s ∈ ig) →
      (∀ s ∈ ss, ∀ u, Edge G s u → u ∉ ig → P u) →
    match reachSources G ig ss w with
    | .ok w' => Done G ig P w' ∧ (∀ x, (dget w x).isSome → (dget w' x).isSome) ∧
        ∀ s ∈ ss, ∀ u, Edge G s u → u ∉ ig → (dget w' u).isSome
    | .error e => CycleReport G ig P e := by
  intro ss
  induction ss with
  | nil =>
    intro w hw _ _ _
    exact ⟨hw, fun x h => h, by simp⟩
  | cons s ss ih =>
    intro w hw hN hig hPs
    unfold reachSources
    rw [if_pos (hig s (by simp)), succs_of_node (hN s (by simp))]
    simp only
    have h1 := reachFrom_spec hG hP (nbr G s) w hw
      (fun u hu => hG.closed s u ((edge_iff_nbr hG.keys_nodup).2 hu))
      (fun u hu hui => hPs s (by simp) u ((edge_iff_nbr hG.keys_nodup).2 hu) hui)
    cases hr : reachFrom G ig (nbr G s) w with
    | error e => rw [hr] at h1; simpa using h1
    | ok w₁ =>
      rw [hr] at h1
      simp only at h1 ⊢
      have := ih w₁ h1.1 (fun x hx => hN x (List.mem_cons_of_mem _ hx))
        (fun x hx => hig x (List.mem_cons_of_mem _ hx))
        (fun x hx => hPs x (List.mem_cons_of_mem _ hx))
      cases hr2 : reachSources G ig ss w₁ with
      | error e => rw [hr2] at this; simpa using this
      | ok w' =>
        rw [hr2] at this
        simp only at this ⊢
        refine ⟨this.1, fun x hx => this.2.1 x (h1.2.1 x hx), ?_⟩
        intro t ht u hu hui
        rcases List.mem_cons.1 ht with rfl | ht
        · exact this.2.1 u (h1.2.2 u ((edge_iff_nbr hG.keys_nodup).1 hu) hui)
        · exact this.2.2 t ht u hu hui

end
end Subsetter
