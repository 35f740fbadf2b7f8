import Verif.Proofs.Dfs

/- `reverse_graph`. -/
namespace Subsetter
open Spec

section
variable {α : Type u} [DecidableEq α]

/-- Invariant of the loops: keys fixed, sets duplicate free, membership described by `R`. -/
structure RevInv (keys : List α) (R : α → α → Prop) (RG : Graph α) : Prop where
  keys_eq : RG.map Prod.fst = keys
  sets : ∀ u, (nbr RG u).Nodup
  mem : ∀ u v, v ∈ nbr RG u ↔ R u v

theorem nbr_dset (G : Graph α) (u : α) (es : List α) (x : α) :
    nbr (dset G u es) x = if u = x then es else nbr G x := by
  unfold nbr; rw [dget_dset]; split <;> rfl

theorem addEdge_spec {keys : List α} {R : α → α → Prop} {RG : Graph α} (h : RevInv keys R RG)
    {v u : α} (hv : v ∈ keys) :
    ∃ RG', addEdge RG v u = .ok RG' ∧ RevInv keys (fun a b => R a b ∨ (a = v ∧ b = u)) RG' := by
  rw [← h.keys_eq] at hv
  obtain ⟨s, hs⟩ := mem_keys_iff.1 hv
  have hn : nbr RG v = s := by simp [nbr, hs]
  refine ⟨dset RG v (setAdd s u), by simp only [addEdge, hs], ?_, ?_, ?_⟩
  · rw [dset_keys, if_pos hv, h.keys_eq]
  · intro x
    rw [nbr_dset]; split
    · rw [← hn]; exact setAdd_nodup (h.sets v) u
    · exact h.sets x
  · intro x y
    rw [nbr_dset]; split
    · next hx => subst hx; rw [mem_setAdd, ← hn, h.mem]; simp
    · next hx => rw [h.mem]; simp [Ne.symm hx]

theorem addEdges_spec {keys : List α} (u : α) : ∀ (es : List α) (R : α → α → Prop) (RG : Graph α),
    RevInv keys R RG → (∀ v ∈ es, v ∈ keys) →
    ∃ RG', addEdges u es RG = .ok RG' ∧ RevInv keys (fun a b => R a b ∨ (a ∈ es ∧ b = u)) RG' := by
  intro es
  induction es with
  | nil => intro R RG h _; exact ⟨RG, rfl, by simpa using h⟩
  | cons v es ih =>
    intro R RG h hes
    obtain ⟨RG₁, h1, h2⟩ := addEdge_spec h (u := u) (hes v (by simp))
    obtain ⟨RG₂, h3, h4⟩ := ih _ _ h2 (fun x hx => hes x (List.mem_cons_of_mem _ hx))
    refine ⟨RG₂, by simp only [addEdges, h1, h3], ?_⟩
    refine ⟨h4.keys_eq, h4.sets, fun a b => ?_⟩
    rw [h4.mem]; simp only [List.mem_cons]; tauto

theorem revLoop_spec {keys : List α} : ∀ (G : Graph α) (R : α → α → Prop) (RG : Graph α),
    RevInv keys R RG → (∀ u v, Edge G u v → v ∈ keys) →
    ∃ RG', revLoop G RG = .ok RG' ∧ RevInv keys (fun a b => R a b ∨ Edge G b a) RG' := by
  intro G
  induction G with
  | nil => intro R RG h _; exact ⟨RG, rfl, by simpa [Edge] using h⟩
  | cons p G ih =>
    obtain ⟨u, es⟩ := p
    intro R RG h hcl
    obtain ⟨RG₁, h1, h2⟩ := addEdges_spec u es _ _ h
      (fun v hv => hcl u v ⟨es, by simp, hv⟩)
    obtain ⟨RG₂, h3, h4⟩ := ih _ _ h2 (fun x y ⟨fs, hf, hy⟩ => hcl x y ⟨fs, by simp [hf], hy⟩)
    refine ⟨RG₂, by simp only [revLoop, h1, h3], ?_⟩
    refine ⟨h4.keys_eq, h4.sets, fun a b => ?_⟩
    rw [h4.mem]
    constructor
    · rintro ((h | ⟨h5, h6⟩) | ⟨fs, h5, h6⟩)
      · exact Or.inl h
      · exact Or.inr ⟨es, by simp [h6], h5⟩
      · exact Or.inr ⟨fs, by simp [h5], h6⟩
    · rintro (h | ⟨fs, h5, h6⟩)
      · exact Or.inl (Or.inl h)
      · rcases List.mem_cons.1 h5 with h7 | h7
        · cases h7; exact Or.inl (Or.inr ⟨h6, rfl⟩)
        · exact Or.inr ⟨fs, h7, h6⟩

theorem nbr_map (G : Graph α) (f : List α → List α) (hf : f [] = []) (u : α) :
    nbr (G.map fun p => (p.1, f p.2)) u = f (nbr G u) := by
  unfold nbr
  induction G with
  | nil => simp [hf]
  | cons p G ih =>
    obtain ⟨x, es⟩ := p
    simp only [List.map_cons, dget_cons]
    split
    · rfl
    · exact ih

theorem nbr_nodup {G : Graph α} (hG : IsGraph G) (u : α) : (nbr G u).Nodup := by
  unfold nbr
  cases h : dget G u with
  | none => simp
  | some es => exact hG.sets_nodup u es (dget_some_mem h)

theorem isGraph_of_nbr {G : Graph α} (h1 : (G.map Prod.fst).Nodup) (h2 : ∀ u, (nbr G u).Nodup)
    (h3 : ∀ u v, v ∈ nbr G u → Node G v) : IsGraph G := by
  refine ⟨h1, fun u es hu => ?_, fun u v h => h3 u v ((edge_iff_nbr h1).1 h)⟩
  have := h2 u
  simpa [nbr, dget_of_mem h1 hu] using this

/-- What `reverse_graph` returns. -/
theorem reverseGraph_spec {G : Graph α} (hG : IsGraph G) (union : Bool) :
    ∃ RG, reverseGraph G union = .ok RG ∧ IsGraph RG ∧ RG.map Prod.fst = G.map Prod.fst ∧
      ∀ u v, Edge RG u v ↔ Edge G v u ∨ (union = true ∧ Edge G u v) := by
  have h0 : RevInv (G.map Prod.fst) (fun a b => union = true ∧ Edge G a b)
      (G.map fun p => (p.1, if union then p.2 else [])) := by
    refine ⟨by simp [Function.comp_def], fun u => ?_, fun u v => ?_⟩
    · rw [nbr_map G (fun x => if union then x else []) (by simp)]
      cases union
      · simp
      · simpa using nbr_nodup hG u
    · rw [nbr_map G (fun x => if union then x else []) (by simp)]
      cases union
      · simp
      · simpa using (edge_iff_nbr hG.keys_nodup).symm
  obtain ⟨RG, h1, h2⟩ := revLoop_spec G _ _ h0 hG.closed
  have hk : (RG.map Prod.fst).Nodup := by rw [h2.keys_eq]; exact hG.keys_nodup
  have hE : ∀ u v, Edge RG u v ↔ Edge G v u ∨ (union = true ∧ Edge G u v) := by
    intro u v
    rw [edge_iff_nbr hk, h2.mem]; tauto
  refine ⟨RG, h1, isGraph_of_nbr hk h2.sets ?_, h2.keys_eq, hE⟩
  intro u v huv
  unfold Node
  rw [h2.keys_eq]
  rcases (hE u v).1 ((edge_iff_nbr hk).2 huv) with ⟨es, h3, -⟩ | ⟨-, h⟩
  · exact List.mem_map_of_mem (f := Prod.fst) h3
  · exact hG.closed u v h

end
end Subsetter
