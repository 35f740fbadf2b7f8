import Verif.Proofs.Order

/- `toposort` (Kahn's algorithm). -/
namespace Subsetter
open Spec

set_option linter.unusedSectionVars false

section
variable {α : Type u} [DecidableEq α]

theorem kahnInner_spec : ∀ (vs : List α) (deg : Dict α Int) (new : List α),
    (deg.map Prod.fst).Nodup → vs.Nodup → (∀ v ∈ vs, v ∈ deg.map Prod.fst) →
    ∃ deg', kahnInner vs deg new = .ok (deg', new ++ vs.filter fun v => dget deg v = some 1) ∧
      deg'.map Prod.fst = deg.map Prod.fst ∧
      ∀ x d, dget deg x = some d → dget deg' x = some (if x ∈ vs then d - 1 else d) := by
  intro vs
  induction vs with
  | nil => intro deg new _ _ _; exact ⟨deg, by simp [kahnInner], rfl, by simp⟩
  | cons v vs ih =>
    intro deg new hd hnd hk
    obtain ⟨d, hdv⟩ := mem_keys_iff.1 (hk v (by simp))
    rw [List.nodup_cons] at hnd
    have hkeys : (dset deg v (d - 1)).map Prod.fst = deg.map Prod.fst := by
      rw [dset_keys, if_pos (hk v (by simp))]
    obtain ⟨deg', h1, h2, h3⟩ := ih (dset deg v (d - 1)) (if d - 1 = 0 then new ++ [v] else new)
      (by rw [hkeys]; exact hd) hnd.2
      (fun x hx => by rw [hkeys]; exact hk x (List.mem_cons_of_mem _ hx))
    have hf : (vs.filter fun x => dget (dset deg v (d - 1)) x = some 1) =
        vs.filter fun x => dget deg x = some 1 := by
      apply List.filter_congr
      intro x hx
      have hne : v ≠ x := by rintro rfl; exact hnd.1 hx
      rw [dget_dset_ne _ _ hne]
    refine ⟨deg', ?_, h2.trans hkeys, ?_⟩
    · simp only [kahnInner, hdv, h1, hf, List.filter_cons]
      by_cases h0 : d - 1 = 0
      · have h0' : d = 1 := by omega
        simp [h0']
      · have h0' : ¬ d = 1 := by omega
        simp [h0, h0']
    · intro x e hx
      by_cases hxv : v = x
      · subst hxv
        rw [hdv] at hx; cases hx
        rw [h3 v (d - 1) (by simp)]
        simp [hnd.1]
      · rw [h3 x e (by rw [dget_dset_ne _ _ hxv]; exact hx)]
        simp [Ne.symm hxv]

structure KInv (G : Graph α) (deg : Dict α Int) (done todo : List α) : Prop where
  keys : deg.map Prod.fst = G.map Prod.fst
  nodup : (done ++ todo).Nodup
  node : ∀ x ∈ done ++ todo, Node G x
  cnt : ∀ v d, dget deg v = some d → d = (((nbr G v).filter (· ∉ done)).length : Int)
  zero : ∀ v d, dget deg v = some d → (v ∈ done ++ todo ↔ d = 0)
  sorted : ∀ l₁ v l₂, done = l₁ ++ v :: l₂ → ∀ x ∈ nbr G v, x ∈ l₁

theorem KInv.todo_sub {G : Graph α} {deg : Dict α Int} {done todo : List α}
    (h : KInv G deg done todo) {v : α} (hv : v ∈ done ++ todo) : ∀ x ∈ nbr G v, x ∈ done := by
  have hk : v ∈ deg.map Prod.fst := by rw [h.keys]; exact h.node v hv
  obtain ⟨d, hd⟩ := mem_keys_iff.1 hk
  have h0 := (h.zero v d hd).1 hv
  have h1 := h.cnt v d hd
  rw [h0] at h1
  have h2 : ((nbr G v).filter (· ∉ done)) = [] := by
    rw [← List.length_eq_zero_iff]; omega
  intro x hx
  by_contra hn
  have : x ∈ (nbr G v).filter (· ∉ done) := by
    rw [List.mem_filter]; exact ⟨hx, by simpa using hn⟩
  rw [h2] at this; simp at this

theorem filter_length_step {l : List α} (hl : l.Nodup) {done : List α} {u : α} (hu : u ∉ done) :
    ((l.filter (· ∉ done)).length : Int) =
      ((l.filter (· ∉ done ++ [u])).length : Int) + (if u ∈ l then 1 else 0) := by
  induction l with
  | nil => simp
  | cons a l ih =>
    rw [List.nodup_cons] at hl
    have ih := ih hl.2
    by_cases hau : a = u
    · subst hau
      have e1 : ((a :: l).filter (· ∉ done)) = a :: l.filter (· ∉ done) := by
        rw [List.filter_cons_of_pos]; simpa using hu
      have e2 : ((a :: l).filter (· ∉ done ++ [a])) = l.filter (· ∉ done ++ [a]) := by
        rw [List.filter_cons_of_neg]; simp
      rw [e1, e2]
      rw [if_neg hl.1] at ih
      simp only [List.length_cons, List.mem_cons, true_or, if_true]
      omega
    · have hm : (u ∈ a :: l) ↔ u ∈ l := by simp [Ne.symm hau]
      by_cases had : a ∈ done
      · have e1 : ((a :: l).filter (· ∉ done)) = l.filter (· ∉ done) := by
          rw [List.filter_cons_of_neg]; simpa using had
        have e2 : ((a :: l).filter (· ∉ done ++ [u])) = l.filter (· ∉ done ++ [u]) := by
          rw [List.filter_cons_of_neg]; simp [had]
        rw [e1, e2, ih]; simp only [hm]
      · have e1 : ((a :: l).filter (· ∉ done)) = a :: l.filter (· ∉ done) := by
          rw [List.filter_cons_of_pos]; simpa using had
        have e2 : ((a :: l).filter (· ∉ done ++ [u])) = a :: l.filter (· ∉ done ++ [u]) := by
          rw [List.filter_cons_of_pos]; simp [had, hau]
        rw [e1, e2]; simp only [hm, List.length_cons]
        push_cast; omega

theorem kahnLoop_spec {G RG : Graph α} (hG : IsGraph G) (hRG : IsGraph RG)
    (hN : ∀ u, Node RG u ↔ Node G u) (hE : ∀ u v, Edge RG u v ↔ Edge G v u) :
    ∀ (n : Nat) (deg : Dict α Int) (done todo : List α), KInv G deg done todo →
    G.length ≤ n + done.length →
    ∃ q deg', kahnLoop RG n deg done todo = .ok q ∧ KInv G deg' q [] := by
  intro n
  induction n with
  | zero =>
    intro deg done todo h hn
    cases todo with
    | nil => exact ⟨done, deg, by simp [kahnLoop], h⟩
    | cons u todo =>
      have : (done ++ u :: todo).Subperm (G.map Prod.fst) := List.subperm_of_subset h.nodup h.node
      have := this.length_le
      simp at this; omega
  | succ n ih =>
    intro deg done todo h hn
    cases todo with
    | nil => exact ⟨done, deg, by simp [kahnLoop], h⟩
    | cons u todo =>
      have huG : Node G u := h.node u (by simp)
      have hmem : ∀ v, v ∈ nbr RG u ↔ u ∈ nbr G v := by
        intro v
        rw [← edge_iff_nbr hRG.keys_nodup, ← edge_iff_nbr hG.keys_nodup, hE]
      have hvk : ∀ v ∈ nbr RG u, v ∈ deg.map Prod.fst := by
        intro v hv
        rw [h.keys]
        exact (hN v).1 (hRG.closed u v ((edge_iff_nbr hRG.keys_nodup).2 hv))
      obtain ⟨deg', h1, h2, h3⟩ := kahnInner_spec (nbr RG u) deg []
        (by rw [h.keys]; exact hG.keys_nodup) (nbr_nodup hRG u) hvk
      simp only [kahnLoop, succs_of_node ((hN u).2 huG), h1, List.nil_append]
      have hnd := h.nodup
      have hu_done : u ∉ done := by
        rw [List.nodup_append] at hnd
        intro hu
        exact hnd.2.2 u hu u (by simp) rfl
      -- for a parent `v` of `u` the degree is positive
      have hnew : ∀ v ∈ nbr RG u, v ∉ done ++ u :: todo := by
        intro v hv hin
        exact hu_done (h.todo_sub hin u ((hmem v).1 hv))
      refine ih deg' (done ++ [u]) _ ⟨h2.trans h.keys, ?_, ?_, ?_, ?_, ?_⟩ (by simp; omega)
      · have : done ++ [u] ++ (todo ++ (nbr RG u).filter fun v => dget deg v = some 1)
            = (done ++ u :: todo) ++ (nbr RG u).filter fun v => dget deg v = some 1 := by simp
        rw [this, List.nodup_append]
        refine ⟨hnd, (nbr_nodup hRG u).filter _, ?_⟩
        rintro x hx y hy rfl
        exact hnew x (List.mem_of_mem_filter hy) hx
      · intro x hx
        simp only [List.append_assoc, List.mem_append, List.mem_singleton, List.mem_filter] at hx
        rcases hx with hx | hx | hx | hx
        · exact h.node x (by simp [hx])
        · exact h.node x (by simp [hx])
        · exact h.node x (by simp [hx])
        · have := hvk x hx.1
          rw [h.keys] at this; exact this
      · intro v d hd
        have hk : v ∈ deg.map Prod.fst := by
          rw [← h2]; exact mem_keys_iff.2 ⟨d, hd⟩
        obtain ⟨e, he⟩ := mem_keys_iff.1 hk
        have := h3 v e he
        rw [hd] at this
        have hd' : d = if v ∈ nbr RG u then e - 1 else e := by simpa using this
        have hc := h.cnt v e he
        rw [filter_length_step (nbr_nodup hG v) hu_done] at hc
        simp only [hmem] at hd'
        split at hd' <;> simp_all
      · intro v d hd
        have hk : v ∈ deg.map Prod.fst := by
          rw [← h2]; exact mem_keys_iff.2 ⟨d, hd⟩
        obtain ⟨e, he⟩ := mem_keys_iff.1 hk
        have := h3 v e he
        rw [hd] at this
        have hd' : d = if v ∈ nbr RG u then e - 1 else e := by simpa using this
        have hz := h.zero v e he
        have hm : (v ∈ done ++ [u] ++ (todo ++ (nbr RG u).filter fun v => dget deg v = some 1)) ↔
            (v ∈ done ++ u :: todo) ∨ (v ∈ nbr RG u ∧ e = 1) := by
          simp only [List.append_assoc, List.mem_append, List.mem_filter,
            List.mem_cons, he, decide_eq_true_eq, Option.some.injEq]
          tauto
        rw [hm, hz]
        by_cases hv : v ∈ nbr RG u
        · rw [if_pos hv] at hd'
          have := hnew v hv
          rw [hz] at this
          constructor
          · rintro (h | h)
            · exact absurd h this
            · omega
          · intro h; exact Or.inr ⟨hv, by omega⟩
        · rw [if_neg hv] at hd'
          simp [hv, hd']
      · intro l₁ v l₂ hl
        rcases List.eq_nil_or_concat l₂ with rfl | ⟨l₂', b, rfl⟩
        · have hl' : done ++ [u] = l₁ ++ [v] := hl
          obtain ⟨rfl, h6⟩ := List.append_inj' hl' rfl
          cases h6
          exact h.todo_sub (by simp)
        · rw [List.concat_eq_append] at hl
          have hl' : done ++ [u] = (l₁ ++ v :: l₂') ++ [b] := by simpa using hl
          obtain ⟨h5, -⟩ := List.append_inj' hl' rfl
          exact h.sorted l₁ v l₂' h5

theorem exists_cycle_of_total : ∀ (S : List α) (R : α → α → Prop), S ≠ [] →
    (∀ x ∈ S, ∃ y ∈ S, R x y) → ∃ x ∈ S, Relation.TransGen R x x := by
  intro S
  induction S with
  | nil => intro R h; exact absurd rfl h
  | cons a S ih =>
    intro R _ h
    by_cases haa : R a a
    · exact ⟨a, by simp, Relation.TransGen.single haa⟩
    · obtain ⟨z, hz, haz⟩ := h a (by simp)
      have hzS : z ∈ S := by
        rcases List.mem_cons.1 hz with rfl | hz
        · exact absurd haz haa
        · exact hz
      obtain ⟨x, hx, hc⟩ := ih (fun x y => R x y ∨ (R x a ∧ R a y)) (List.ne_nil_of_mem hzS) (by
        intro x hx
        obtain ⟨y, hy, hxy⟩ := h x (List.mem_cons_of_mem _ hx)
        rcases List.mem_cons.1 hy with rfl | hy
        · exact ⟨z, hzS, Or.inr ⟨hxy, haz⟩⟩
        · exact ⟨y, hy, Or.inl hxy⟩)
      refine ⟨x, List.mem_cons_of_mem _ hx, ?_⟩
      have key : ∀ p q, Relation.TransGen (fun x y => R x y ∨ (R x a ∧ R a y)) p q →
          Relation.TransGen R p q := by
        intro p q hpq
        induction hpq with
        | single h =>
          rcases h with h | ⟨h1, h2⟩
          · exact Relation.TransGen.single h
          · exact (Relation.TransGen.single h1).tail h2
        | tail _ h ih =>
          rcases h with h | ⟨h1, h2⟩
          · exact ih.tail h
          · exact (ih.tail h1).tail h2
      exact key _ _ hc

theorem sorted_acyclic {G : Graph α} (hG : IsGraph G) {q : List α}
    (hs : ∀ l₁ v l₂, q = l₁ ++ v :: l₂ → ∀ x ∈ nbr G v, x ∈ l₁) (hnd : q.Nodup)
    {u : α} (hu : u ∈ q) : ¬ Relation.TransGen (Edge G) u u := by
  have key : ∀ a b, Relation.TransGen (Edge G) a b → ∀ l₁ l₂, q = l₁ ++ a :: l₂ → b ∈ l₁ := by
    intro a b hab
    induction hab with
    | single h =>
      intro l₁ l₂ hq
      exact hs l₁ _ l₂ hq _ ((edge_iff_nbr hG.keys_nodup).1 h)
    | tail _ h ih =>
      intro l₁ l₂ hq
      have hb := ih l₁ l₂ hq
      obtain ⟨s, t, rfl⟩ := List.append_of_mem hb
      have := hs s _ (t ++ a :: l₂) (by rw [hq]; simp) _ ((edge_iff_nbr hG.keys_nodup).1 h)
      simp [this]
  intro h
  obtain ⟨s, t, rfl⟩ := List.append_of_mem hu
  have := key u u h s t rfl
  rw [List.nodup_append] at hnd
  exact hnd.2.2 u this u (by simp) rfl

theorem toposort_spec {G : Graph α} (hG : IsGraph G) :
    (∃ q, toposort G = .ok q ∧ q.Perm (G.map Prod.fst) ∧
      (∀ l₁ v l₂, q = l₁ ++ v :: l₂ → ∀ x, Edge G v x → x ∈ l₁) ∧ ∀ u, ¬ OnCycle G u) ∨
    (toposort G = .error .cycleDetected ∧ ∃ u, Node G u ∧ OnCycle G u) := by
  obtain ⟨RG, h1, h2, h3, h4⟩ := reverseGraph_spec hG false
  have hE : ∀ u v, Edge RG u v ↔ Edge G v u := by intro u v; rw [h4]; simp
  have hN : ∀ u, Node RG u ↔ Node G u := by intro u; unfold Node; rw [h3]
  have hdeg : ∀ v d, dget (G.map fun p => (p.1, (p.2.length : Int))) v = some d →
      d = ((nbr G v).length : Int) := by
    intro v d hd
    have := dget_some_mem hd
    simp only [List.mem_map, Prod.mk.injEq, Prod.exists] at this
    obtain ⟨a, es, h5, rfl, rfl⟩ := this
    simp [nbr, dget_of_mem hG.keys_nodup h5]
  have hmem : ∀ v, v ∈ ((G.filter fun p => p.2.isEmpty).map Prod.fst) ↔
      Node G v ∧ (nbr G v) = [] := by
    intro v
    constructor
    · intro hv
      obtain ⟨⟨a, es⟩, h5, rfl⟩ := List.mem_map.1 hv
      obtain ⟨h5, h6⟩ := List.mem_filter.1 h5
      rw [List.isEmpty_iff] at h6
      simp only at h6 ⊢
      exact ⟨List.mem_map_of_mem (f := Prod.fst) h5, by
        simp [nbr, dget_of_mem hG.keys_nodup h5, h6]⟩
    · rintro ⟨h5, h6⟩
      obtain ⟨es, he⟩ := mem_keys_iff.1 h5
      simp [nbr, he] at h6
      exact List.mem_map.2 ⟨(v, es), List.mem_filter.2 ⟨dget_some_mem he, by simp [h6]⟩, rfl⟩
  have hinit : KInv G (G.map fun p => (p.1, (p.2.length : Int))) []
      ((G.filter fun p => p.2.isEmpty).map Prod.fst) := by
    refine ⟨by simp [Function.comp_def], ?_, ?_, ?_, ?_, by simp⟩
    · exact (List.Sublist.map Prod.fst List.filter_sublist).nodup hG.keys_nodup
    · intro x hx; exact ((hmem x).1 (by simpa using hx)).1
    · intro v d hd
      rw [hdeg v d hd]; simp
    · intro v d hd
      rw [List.nil_append, hmem, hdeg v d hd]
      have : Node G v := by
        have := dget_some_mem hd
        simp only [List.mem_map, Prod.mk.injEq, Prod.exists] at this
        obtain ⟨a, es, h5, rfl, rfl⟩ := this
        exact List.mem_map_of_mem (f := Prod.fst) h5
      simp [this]
  obtain ⟨q, deg', h5, h6⟩ := kahnLoop_spec hG h2 hN hE G.length _ _ _ hinit (by simp)
  have hnd : q.Nodup := by simpa using h6.nodup
  have hnode : ∀ x ∈ q, x ∈ G.map Prod.fst := fun x hx => h6.node x (by simpa using hx)
  simp only [toposort, h1, h5]
  by_cases hl : q.length < G.length
  · right
    rw [if_pos hl]
    refine ⟨rfl, ?_⟩
    let S := (G.map Prod.fst).filter (· ∉ q)
    have hS : S ≠ [] := by
      intro hS
      have hsub : G.map Prod.fst ⊆ q := by
        intro x hx
        by_contra hn
        have : x ∈ S := List.mem_filter.2 ⟨hx, by simpa using hn⟩
        rw [hS] at this; simp at this
      have := (List.subperm_of_subset hG.keys_nodup hsub).length_le
      simp at this; omega
    obtain ⟨x, hx, hc⟩ := exists_cycle_of_total S (Edge G) hS (by
      intro x hx
      obtain ⟨hxG, hxq⟩ := List.mem_filter.1 hx
      have hxq : x ∉ q := by simpa using hxq
      have hk : x ∈ deg'.map Prod.fst := by rw [h6.keys]; exact hxG
      obtain ⟨d, hd⟩ := mem_keys_iff.1 hk
      have hz := h6.zero x d hd
      have hc := h6.cnt x d hd
      have hd0 : ¬ d = 0 := fun h => hxq (by simpa using hz.2 h)
      have : ((nbr G x).filter (· ∉ q)) ≠ [] := by
        intro h; rw [h] at hc; simp at hc; exact hd0 hc
      obtain ⟨y, hy⟩ := List.exists_mem_of_ne_nil _ this
      obtain ⟨hy1, hy2⟩ := List.mem_filter.1 hy
      have hxy := (edge_iff_nbr hG.keys_nodup).2 hy1
      exact ⟨y, List.mem_filter.2 ⟨hG.closed x y hxy, hy2⟩, hxy⟩)
    exact ⟨x, (List.mem_filter.1 hx).1, hc⟩
  · left
    rw [if_neg hl]
    have hperm : q.Perm (G.map Prod.fst) := by
      refine (List.subperm_of_subset hnd hnode).perm_of_length_le ?_
      simp; omega
    refine ⟨q, rfl, hperm, ?_, ?_⟩
    · intro l₁ v l₂ hq x hx
      exact h6.sorted l₁ v l₂ hq x ((edge_iff_nbr hG.keys_nodup).1 hx)
    · intro u hu
      have huN : u ∈ G.map Prod.fst := by
        unfold OnCycle at hu
        obtain ⟨y, ⟨es, h7, -⟩, -⟩ := Relation.TransGen.head'_iff.1 hu
        exact List.mem_map_of_mem (f := Prod.fst) h7
      exact sorted_acyclic hG h6.sorted hnd (hperm.mem_iff.2 huN) hu

end
end Subsetter
