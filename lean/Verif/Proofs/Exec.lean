import Verif.Proofs.EvalCongr
import Verif.Proofs.Names
import Verif.Proofs.Kahn
import Verif.Spec.Plan

/- Materialisation and execution of plans. -/
set_option linter.unusedSimpArgs false
namespace Subsetter
open Spec

/-! ### Counters -/

/-- `d.get(k, 0)` -/
def gd (d : Dict Key Nat) (k : Key) : Nat := (dget d k).getD 0

theorem gd_dset (d : Dict Key Nat) (k : Key) (v : Nat) (x : Key) :
    gd (dset d k v) x = if k = x then v else gd d x := by
  unfold gd; rw [dget_dset]; split <;> rfl

theorem gd_countKey (c : Dict Key Nat) (k x : Key) :
    gd (countKey c k) x = gd c x + if k = x then 1 else 0 := by
  unfold countKey; rw [gd_dset]
  split
  · next h => subst h; rfl
  · rfl

theorem gd_foldl_countKey (l : List Key) (c : Dict Key Nat) (x : Key) :
    gd (l.foldl countKey c) x = gd c x + l.count x := by
  induction l generalizing c with
  | nil => simp
  | cons k l ih =>
    rw [List.foldl_cons, ih, gd_countKey, List.count_cons]
    by_cases h : k = x
    · subst h; simp; omega
    · simp [h]

theorem mem_foldl_countKey (l : List Key) (c : Dict Key Nat) (x : Key) :
    x ∈ (l.foldl countKey c).map Prod.fst ↔ x ∈ c.map Prod.fst ∨ x ∈ l := by
  induction l generalizing c with
  | nil => simp
  | cons k l ih =>
    rw [List.foldl_cons, ih]; unfold countKey
    rw [mem_dset_keys]; simp only [List.mem_cons]; tauto

theorem nodup_foldl_countKey (l : List Key) {c : Dict Key Nat} (h : (c.map Prod.fst).Nodup) :
    ((l.foldl countKey c).map Prod.fst).Nodup := by
  induction l generalizing c with
  | nil => exact h
  | cons k l ih => exact ih (dset_nodup h _ _)

theorem gd_foldl_maxCount (c : Dict Key Nat) (hc : (c.map Prod.fst).Nodup) (m : Dict Key Nat)
    (x : Key) : gd (c.foldl maxCount m) x = max (gd m x) (gd c x) := by
  induction c generalizing m with
  | nil => simp [gd]
  | cons p c ih =>
    obtain ⟨k, n⟩ := p
    simp only [List.map_cons, List.nodup_cons] at hc
    rw [List.foldl_cons, ih hc.2]
    unfold maxCount
    rw [gd_dset]
    by_cases h : k = x
    · subst h
      have h0 : gd c k = 0 := by unfold gd; rw [dget_none_iff.2 hc.1]; rfl
      have h1 : gd ((k, n) :: c) k = n := by simp [gd, dget_cons]
      rw [if_pos rfl, h0, h1]; simp [gd]
    · have h1 : gd ((k, n) :: c) x = gd c x := by simp [gd, dget_cons, h]
      rw [if_neg h, h1]

theorem mem_foldl_maxCount (c : Dict Key Nat) (m : Dict Key Nat) (x : Key) :
    x ∈ (c.foldl maxCount m).map Prod.fst ↔ x ∈ m.map Prod.fst ∨ x ∈ c.map Prod.fst := by
  induction c generalizing m with
  | nil => simp
  | cons p c ih =>
    rw [List.foldl_cons, ih]; unfold maxCount
    rw [mem_dset_keys]; simp only [List.map_cons, List.mem_cons]; tauto

/-! ### Dependency graph -/

theorem mem_sampledRefs {q : TableQuery} {d : Key} : d ∈ sampledRefs q ↔ Uses q d := by
  simp only [sampledRefs, List.mem_map, List.mem_filter, Uses, and_assoc]

/-- Contribution of one query to the number of copies of `x`. -/
def useCount (T : Tables) (compact : Dict Key (List Str)) (k : Key) (q : TableQuery) (x : Key) :
    Nat :=
  (sampledRefs q).count x +
    (match dget T k with | none => 0 | some t => (compactRefs compact t).count x)

theorem depLoop_spec (T : Tables) (compact : Dict Key (List Str)) :
    ∀ (qs : List (Str × TableQuery)) (g : Graph Key) (m : Dict Key Nat),
    (∀ nq ∈ qs, ∃ k, parseTableName nq.1 = some k ∧ (dget T k).isSome) →
    (∀ nq ∈ qs, ∀ x ∈ nq.2.refs, (dget T x.key).isSome) →
    (qs.map Prod.fst).Nodup →
    (∀ nq ∈ qs, ∀ k, parseTableName nq.1 = some k → k ∉ g.map Prod.fst) →
    (g.map Prod.fst).Nodup → (∀ u es, (u, es) ∈ g → es.Nodup) →
    ∃ g' m', depLoop T compact qs g m = .ok (g', m') ∧
      (g'.map Prod.fst).Nodup ∧ (∀ u es, (u, es) ∈ g' → es.Nodup) ∧
      (∀ u, u ∈ g'.map Prod.fst ↔
        u ∈ g.map Prod.fst ∨ ∃ nq ∈ qs, parseTableName nq.1 = some u) ∧
      (∀ u v, Edge g' u v ↔
        Edge g u v ∨ ∃ nq ∈ qs, parseTableName nq.1 = some u ∧ Uses nq.2 v) ∧
      (∀ x, gd m x ≤ gd m' x) ∧
      (∀ nq ∈ qs, ∀ k, parseTableName nq.1 = some k →
        ∀ x, useCount T compact k nq.2 x ≤ gd m' x) ∧
      (∀ x, x ∈ m'.map Prod.fst ↔ x ∈ m.map Prod.fst ∨ ∃ nq ∈ qs,
        x ∈ sampledRefs nq.2 ∨ ∃ k t, parseTableName nq.1 = some k ∧ dget T k = some t ∧
          x ∈ compactRefs compact t) := by
  intro qs
  induction qs with
  | nil =>
    intro g m _ _ _ _ hg hs
    exact ⟨g, m, rfl, hg, hs, by simp, by simp, fun _ => le_refl _, by simp, by simp⟩
  | cons nq qs ih =>
    obtain ⟨name, q⟩ := nq
    intro g m hk hr hnd hfresh hg hs
    obtain ⟨k, hpk, htk⟩ := hk (name, q) (by simp)
    simp only at hpk
    obtain ⟨t, ht⟩ := Option.isSome_iff_exists.1 htk
    have hkg : k ∉ g.map Prod.fst := hfresh (name, q) (by simp) k hpk
    simp only [List.map_cons, List.nodup_cons] at hnd
    set c := (sampledRefs q).foldl countKey [] with hc
    set c' := (compactRefs compact t).foldl countKey c with hc'
    have hcnd : (c.map Prod.fst).Nodup := nodup_foldl_countKey _ (by simp)
    have hcnd' : (c'.map Prod.fst).Nodup := nodup_foldl_countKey _ hcnd
    have hcmem : ∀ x, x ∈ dkeys c ↔ Uses q x := by
      intro x
      unfold dkeys
      rw [hc, mem_foldl_countKey, ← mem_sampledRefs]; simp
    have hg1 : ((dset g k (dkeys c)).map Prod.fst).Nodup := dset_nodup hg _ _
    have hget : ∀ u, dget (dset g k (dkeys c)) u = if k = u then some (dkeys c) else dget g u :=
      fun u => dget_dset _ _ _ _
    have hs1 : ∀ u es, (u, es) ∈ dset g k (dkeys c) → es.Nodup := by
      intro u es h
      have := dget_of_mem hg1 h
      rw [hget] at this
      by_cases hu : k = u
      · rw [if_pos hu] at this; cases this; exact hcnd
      · rw [if_neg hu] at this; exact hs u es (dget_some_mem this)
    obtain ⟨g', m', h1, h2, h3, h4, h5, h6, h7, h8⟩ := ih (dset g k (dkeys c)) (c'.foldl maxCount m)
      (fun nq h => hk nq (by simp [h])) (fun nq h => hr nq (by simp [h])) hnd.2
      (by
        intro nq h k' hk'
        rw [mem_dset_keys]
        rintro (rfl | h')
        · exact hnd.1 (by rw [parse_inj hpk hk']; exact List.mem_map_of_mem (f := Prod.fst) h)
        · exact hfresh nq (by simp [h]) k' hk' h')
      hg1 hs1
    refine ⟨g', m', ?_, h2, h3, ?_, ?_, ?_, ?_, ?_⟩
    · have hall : (q.refs.all fun t => (dget T t.key).isSome) = true := by
        rw [List.all_eq_true]; exact hr (name, q) (by simp)
      simp only [depLoop]
      rw [if_pos hall]
      simp only [hpk, ht]
      rw [← hc, ← hc']; exact h1
    · intro u
      rw [h4, mem_dset_keys]
      simp only [List.mem_cons, exists_eq_or_imp, hpk, Option.some.injEq]
      rw [eq_comm (a := k)]; tauto
    · intro u v
      rw [h5]
      simp only [List.mem_cons, exists_eq_or_imp, hpk, Option.some.injEq]
      have : Edge (dset g k (dkeys c)) u v ↔ Edge g u v ∨ (k = u ∧ Uses q v) := by
        constructor
        · rintro ⟨es, he, hv⟩
          have := dget_of_mem hg1 he
          rw [hget] at this
          by_cases hu : k = u
          · rw [if_pos hu] at this; cases this; exact Or.inr ⟨hu, (hcmem v).1 hv⟩
          · rw [if_neg hu] at this; exact Or.inl ⟨es, dget_some_mem this, hv⟩
        · rintro (⟨es, he, hv⟩ | ⟨rfl, hv⟩)
          · refine ⟨es, dget_some_mem (k := u) ?_, hv⟩
            rw [hget, if_neg, dget_of_mem hg he]
            rintro rfl; exact hkg (List.mem_map_of_mem (f := Prod.fst) he)
          · exact ⟨dkeys c, dget_some_mem (by rw [hget, if_pos rfl]), (hcmem v).2 hv⟩
      rw [this]; tauto
    · intro x
      refine le_trans ?_ (h6 x)
      rw [gd_foldl_maxCount _ hcnd']; exact le_max_left _ _
    · intro nq h k' hk' x
      rcases List.mem_cons.1 h with rfl | h
      · simp only at hk'
        rw [hpk] at hk'; cases hk'
        refine le_trans ?_ (h6 x)
        rw [gd_foldl_maxCount _ hcnd']
        refine le_trans ?_ (le_max_right _ _)
        rw [hc', gd_foldl_countKey, hc, gd_foldl_countKey]
        simp [useCount, ht, gd]
      · exact h7 nq h k' hk' x
    · intro x
      rw [h8, mem_foldl_maxCount, hc', mem_foldl_countKey, hc, mem_foldl_countKey]
      simp only [List.mem_cons, exists_eq_or_imp, hpk, Option.some.injEq]
      constructor
      · rintro ((h | ((h | h) | h)) | h)
        · exact Or.inl h
        · simp at h
        · exact Or.inr (Or.inl (Or.inl h))
        · exact Or.inr (Or.inl (Or.inr ⟨k, t, rfl, ht, h⟩))
        · exact Or.inr (Or.inr h)
      · rintro (h | ((h | ⟨k', t', rfl, ht', h⟩) | h))
        · exact Or.inl (Or.inl h)
        · exact Or.inl (Or.inr (Or.inl (Or.inr h)))
        · rw [ht] at ht'; cases ht'; exact Or.inl (Or.inr (Or.inr h))
        · exact Or.inr h

theorem transGen_congr {α : Type*} {R R' : α → α → Prop} (h : ∀ a b, R a b ↔ R' a b) (a b : α) :
    Relation.TransGen R a b ↔ Relation.TransGen R' a b := by
  have : R = R' := by funext a b; exact propext (h a b)
  rw [this]

theorem planned_mem_iff {p : Plan} {u : Key} :
    (∃ nq ∈ p.queries, parseTableName nq.1 = some u) ↔ ∃ q, Planned p u q := by
  constructor
  · rintro ⟨⟨n, q⟩, h1, h2⟩; exact ⟨q, n, h1, h2⟩
  · rintro ⟨q, n, h1, h2⟩; exact ⟨(n, q), h1, h2⟩

theorem needs_iff {p : Plan} {u v : Key} :
    (∃ nq ∈ p.queries, parseTableName nq.1 = some u ∧ Uses nq.2 v) ↔ Needs p u v := by
  constructor
  · rintro ⟨⟨n, q⟩, h1, h2, h3⟩; exact ⟨q, ⟨n, h1, h2⟩, h3⟩
  · rintro ⟨q, ⟨n, h1, h2⟩, h3⟩; exact ⟨(n, q), h1, h2, h3⟩

theorem Planned.unique {T : Tables} {p : Plan} (h : PlanOK T p) {k : Key} {q q' : TableQuery}
    (h1 : Planned p k q) (h2 : Planned p k q') : q = q' := by
  obtain ⟨n, h3, h4⟩ := h1
  obtain ⟨n', h5, h6⟩ := h2
  have := parse_inj h4 h6
  subst this
  have a := dget_of_mem h.names_nodup h3
  rw [dget_of_mem h.names_nodup h5] at a
  exact (Option.some.inj a).symm

theorem Planned.get {T : Tables} {p : Plan} (h : PlanOK T p) {k : Key} {q : TableQuery}
    (h1 : Planned p k q) : dget p.queries k.str = some q := by
  obtain ⟨n, h3, h4⟩ := h1
  rw [parse_str h4]
  exact dget_of_mem h.names_nodup h3

/-- A key is materialised if some query uses its sample, or compaction needs it. -/
def Wanted (T : Tables) (compact : Dict Key (List Str)) (p : Plan) (x : Key) : Prop :=
  ∃ k q, Planned p k q ∧
    (Uses q x ∨ ∃ t, dget T k = some t ∧ x ∈ compactRefs compact t)

/-- What `_materialization_order` returns. -/
theorem materializationOrder_spec {T : Tables} {p : Plan} (h : PlanOK T p)
    (compact : Dict Key (List Str)) :
    (∃ order, materializationOrder T compact p = .ok order ∧ Acyclic p ∧
      (order.map Prod.fst).Nodup ∧
      (∀ k, k ∈ order.map Prod.fst ↔ (∃ q, Planned p k q) ∧ Wanted T compact p k) ∧
      (∀ l₁ k n l₂, order = l₁ ++ (k, n) :: l₂ → ∀ d, Needs p k d → d ∈ l₁.map Prod.fst) ∧
      (∀ x n, (x, n) ∈ order → ∀ k q, Planned p k q → useCount T compact k q x ≤ n)) ∨
    (materializationOrder T compact p = .error .cycle ∧ ¬ Acyclic p) := by
  obtain ⟨g, m, h1, h2, h3, h4, h5, -, h7, h8⟩ := depLoop_spec T compact p.queries [] []
    (fun nq hq => h.known nq.1 nq.2 hq)
    (fun nq hq => by
      obtain ⟨k, hk, -⟩ := h.known nq.1 nq.2 hq
      exact h.refs_known k nq.2 ⟨nq.1, hq, hk⟩)
    h.names_nodup (by simp) (by simp) (by simp)
  have h4' : ∀ u, Node g u ↔ ∃ q, Planned p u q := by
    intro u; unfold Node; rw [h4, ← planned_mem_iff]; simp
  have h5' : ∀ u v, Edge g u v ↔ Needs p u v := by
    intro u v; rw [h5, ← needs_iff]
    simp [Edge]
  have hG : IsGraph g := ⟨h2, h3, fun u v huv => (h4' v).2 (h.uses_planned u v ((h5' u v).1 huv))⟩
  have hcyc : ∀ u, OnCycle g u ↔ Relation.TransGen (Needs p) u u := fun u => transGen_congr h5' u u
  have hw : ∀ x, x ∈ m.map Prod.fst ↔ Wanted T compact p x := by
    intro x
    rw [h8]
    simp only [List.map_nil, List.not_mem_nil, false_or]
    constructor
    · rintro ⟨⟨n, q⟩, hq, h9⟩
      obtain ⟨k, hk, -⟩ := h.known n q hq
      refine ⟨k, q, ⟨n, hq, hk⟩, ?_⟩
      rcases h9 with h9 | ⟨k', t, hk', ht, hx⟩
      · exact Or.inl (mem_sampledRefs.1 h9)
      · simp only at hk'; rw [hk] at hk'; cases hk'; exact Or.inr ⟨t, ht, hx⟩
    · rintro ⟨k, q, ⟨n, hq, hk⟩, h9⟩
      refine ⟨(n, q), hq, ?_⟩
      rcases h9 with h9 | ⟨t, ht, hx⟩
      · exact Or.inl (mem_sampledRefs.2 h9)
      · exact Or.inr ⟨k, t, hk, ht, hx⟩
  rcases toposort_spec hG with ⟨q, e1, e2, e3, e4⟩ | ⟨e1, u, -, e3⟩
  · refine Or.inl ⟨q.filterMap fun k => (dget m k).map fun n => (k, n), ?_, ?_, ?_, ?_, ?_, ?_⟩
    · simp only [materializationOrder, h1, e1]
    · intro k hk; exact e4 k ((hcyc k).2 hk)
    · have hmap : (q.filterMap fun k => (dget m k).map fun n => (k, n)).map Prod.fst =
          q.filter fun k => (dget m k).isSome := by
        rw [List.map_filterMap]
        rw [← List.filterMap_eq_filter]
        refine List.filterMap_congr fun k _ => ?_
        cases hd : dget m k <;> simp [Option.guard, hd]
      rw [hmap]
      exact (e2.nodup_iff.2 h2).filter _
    · intro k
      simp only [List.mem_map, List.mem_filterMap, Option.map_eq_some_iff]
      constructor
      · rintro ⟨_, ⟨k', hk', n, hn, rfl⟩, rfl⟩
        exact ⟨(h4' _).1 (e2.mem_iff.1 hk'), (hw _).1 (mem_keys_iff.2 ⟨n, hn⟩)⟩
      · rintro ⟨hq, hwk⟩
        obtain ⟨n, hn⟩ := mem_keys_iff.1 ((hw k).2 hwk)
        exact ⟨(k, n), ⟨k, e2.mem_iff.2 ((h4' k).2 hq), n, hn, rfl⟩, rfl⟩
    · intro l₁ k n l₂ hl d hd
      rw [List.filterMap_eq_append_iff] at hl
      obtain ⟨q₁, q₂, hq, hl1, hl2⟩ := hl
      rw [List.filterMap_eq_cons_iff] at hl2
      obtain ⟨q₃, k', q₄, rfl, h10, h11, -⟩ := hl2
      have hk' : k' = k := by
        rw [Option.map_eq_some_iff] at h11
        obtain ⟨_, _, h12⟩ := h11
        exact (Prod.mk.inj h12).1
      subst hk'
      have hdq : d ∈ q₁ ++ q₃ := e3 (q₁ ++ q₃) k' q₄ (by rw [hq]; simp) d ((h5' _ _).2 hd)
      obtain ⟨qq, hpl, hu⟩ := hd
      obtain ⟨nn, hnn⟩ := mem_keys_iff.1 ((hw d).2 ⟨k', qq, hpl, Or.inl hu⟩)
      rcases List.mem_append.1 hdq with hdq | hdq
      · rw [← hl1]
        simp only [List.mem_map, List.mem_filterMap, Option.map_eq_some_iff]
        exact ⟨(d, nn), ⟨d, hdq, nn, hnn, rfl⟩, rfl⟩
      · have := h10 d hdq
        rw [hnn] at this; simp at this
    · intro x n hx k qq hpl
      simp only [List.mem_filterMap, Option.map_eq_some_iff, Prod.mk.injEq] at hx
      obtain ⟨x', -, n', hn', rfl, rfl⟩ := hx
      obtain ⟨nm, h9, h10⟩ := hpl
      have := h7 (nm, qq) h9 k h10 x'
      simpa [gd, hn'] using this
  · refine Or.inr ⟨by simp only [materializationOrder, h1, e1], ?_⟩
    intro ha
    exact ha u ((hcyc u).1 e3)

end Subsetter
