import Verif.Spec.Dest
import Verif.Proofs.PlanTop
import Verif.Proofs.Kahn
import Verif.Props.Solver

/- Lemmas about the destination. -/
namespace Subsetter
open Spec Props

/-! ### Remapping -/

theorem buildRemap_ok {remap : Str → Str} : ∀ {ns : List Str} {m m' : Dict Str Str},
    buildRemap remap ns m = .ok m' → (m.map Prod.fst).Nodup →
    (m'.map Prod.fst).Nodup ∧
    (∀ r n, dget m r = some n → dget m' r = some n) ∧
    (∀ n ∈ ns, ∃ k, DestOf remap n k ∧ dget m' k.str = some n) ∧
    ∀ r n, dget m' r = some n → dget m r = some n ∨ (n ∈ ns ∧ ∃ k, DestOf remap n k ∧ k.str = r)
  | [], m, m', h, hm => by
    cases h
    exact ⟨hm, fun _ _ h => h, by simp, fun _ _ h => .inl h⟩
  | n :: ns, m, m', h, hm => by
    unfold buildRemap at h
    cases h1 : parseTableName n with
    | none => rw [h1] at h; cases h
    | some k =>
      rw [h1] at h; dsimp only at h
      cases h2 : remapTable remap k with
      | none => rw [h2] at h; cases h
      | some k' =>
        rw [h2] at h; dsimp only at h
        have hd : DestOf remap n k' := ⟨k.1, k.2, h1, h2⟩
        cases h3 : dget m k'.str with
        | none =>
          rw [h3] at h; dsimp only at h
          obtain ⟨g1, g2, g3, g4⟩ := buildRemap_ok h (dset_nodup hm _ _)
          refine ⟨g1, fun r n' hr => g2 r n' ?_, fun n' hn => ?_, fun r n' hr => ?_⟩
          · rw [dget_dset_ne, hr]
            rintro rfl
            rw [h3] at hr; cases hr
          · rcases List.mem_cons.1 hn with rfl | hn
            · exact ⟨k', hd, g2 _ _ (dget_dset_self _ _ _)⟩
            · exact g3 n' hn
          · rcases g4 r n' hr with h | ⟨h, h'⟩
            · rw [dget_dset] at h
              split at h
              · cases h
                exact .inr ⟨by simp, k', hd, by assumption⟩
              · exact .inl h
            · exact .inr ⟨by simp [h], h'⟩
        | some n' =>
          rw [h3] at h; dsimp only at h
          split at h
          · rename_i e; subst e
            obtain ⟨g1, g2, g3, g4⟩ := buildRemap_ok h hm
            refine ⟨g1, g2, fun n'' hn => ?_, fun r n'' hr => ?_⟩
            · rcases List.mem_cons.1 hn with rfl | hn
              · exact ⟨k', hd, g2 _ _ h3⟩
              · exact g3 n'' hn
            · rcases g4 r n'' hr with h | ⟨h, h'⟩
              · exact .inl h
              · exact .inr ⟨by simp [h], h'⟩
          · cases h

theorem destOf_unique {remap : Str → Str} {n : Str} {k k' : Key} (h : DestOf remap n k)
    (h' : DestOf remap n k') : k = k' := by
  obtain ⟨s, t, h1, h2⟩ := h
  obtain ⟨s', t', h1', h2'⟩ := h'
  rw [h1] at h1'; cases h1'
  rw [h2] at h2'; cases h2'
  rfl

theorem destOf_nodot {remap : Str → Str} {n : Str} {k : Key} (h : DestOf remap n k) : '.' ∉ k.1 := by
  obtain ⟨s, t, -, h⟩ := h
  exact parse_fst_nodot h

/-- When remapping fails. -/
theorem buildRemap_error {remap : Str → Str} : ∀ {ns : List Str} {m : Dict Str Str} {e : DestErr},
    buildRemap remap ns m = .error e →
    (e = .badName ∧ ∃ n ∈ ns, ∀ k, ¬ DestOf remap n k) ∨
    ∃ n n' k, e = .duplicate k.str ∧ n ∈ ns ∧ DestOf remap n k ∧ n' ≠ n ∧
      (dget m k.str = some n' ∨ (n' ∈ ns ∧ DestOf remap n' k))
  | [], m, e, h => by cases h
  | n :: ns, m, e, h => by
    unfold buildRemap at h
    cases h1 : parseTableName n with
    | none =>
      rw [h1] at h; cases h
      exact .inl ⟨rfl, n, by simp, fun k ⟨s, t, h2, _⟩ => by rw [h1] at h2; cases h2⟩
    | some k =>
      rw [h1] at h; dsimp only at h
      cases h2 : remapTable remap k with
      | none =>
        rw [h2] at h; cases h
        refine .inl ⟨rfl, n, by simp, fun k' ⟨s, t, h3, h4⟩ => ?_⟩
        rw [h1] at h3; cases h3
        rw [show remapTable remap (s, t) = parseTableName (remap (s ++ '.' :: t)) from rfl, h4] at h2
        cases h2
      | some k' =>
        rw [h2] at h; dsimp only at h
        have hd : DestOf remap n k' := ⟨k.1, k.2, h1, h2⟩
        cases h3 : dget m k'.str with
        | none =>
          rw [h3] at h; dsimp only at h
          rcases buildRemap_error h with ⟨h4, n', h5, h6⟩ | ⟨n1, n2, k1, h4, h5, h6, h7, h8⟩
          · exact .inl ⟨h4, n', by simp [h5], h6⟩
          · right
            refine ⟨n1, n2, k1, h4, by simp [h5], h6, h7, ?_⟩
            rcases h8 with h8 | ⟨h8, h9⟩
            · rw [dget_dset] at h8
              split at h8
              · rename_i e1
                cases h8
                have := str_inj (destOf_nodot hd) (destOf_nodot h6) e1
                subst this
                exact .inr ⟨by simp, hd⟩
              · exact .inl h8
            · exact .inr ⟨by simp [h8], h9⟩
        | some n' =>
          rw [h3] at h; dsimp only at h
          split at h
          · rcases buildRemap_error h with ⟨h4, n', h5, h6⟩ | ⟨n1, n2, k1, h4, h5, h6, h7, h8⟩
            · exact .inl ⟨h4, n', by simp [h5], h6⟩
            · right
              refine ⟨n1, n2, k1, h4, by simp [h5], h6, h7, ?_⟩
              rcases h8 with h8 | ⟨h8, h9⟩
              · exact .inl h8
              · exact .inr ⟨by simp [h8], h9⟩
          · rename_i hne
            cases h
            exact .inr ⟨n, n', k', rfl, by simp, hd, hne, .inl h3⟩

/-! ### Order of the tables -/

theorem asGraph_isGraph {T : Tables} (hT : TablesOK T) : IsGraph (asGraph T []) := by
  refine ⟨asGraph_keys_nodup hT, fun u es h => ?_, fun u v h => ?_⟩
  · obtain ⟨k, t, -, -, -, rfl⟩ := (asGraph_mem hT).1 h
    exact toSet_nodup _
  · obtain ⟨k, k', -, h2, -, -, h5, h6⟩ := (asGraph_edge hT).1 h
    exact (asGraph_node hT).2 ⟨k', h6, h5, h2⟩

theorem lookupTables_ok {T : Tables} : ∀ {us : List Str} {ts : List TableMeta}, lookupTables T us = .ok ts →
    List.Forall₂ (fun u t => ∃ k, parseTableName u = some k ∧ dget T k = some t) us ts
  | [], ts, h => by cases h; exact .nil
  | u :: us, ts, h => by
    unfold lookupTables at h
    cases h1 : parseTableName u with
    | none => rw [h1] at h; cases h
    | some k =>
      rw [h1] at h; dsimp only at h
      cases h2 : dget T k with
      | none => rw [h2] at h; cases h
      | some t =>
        rw [h2] at h; dsimp only at h
        cases h3 : lookupTables T us with
        | error e => rw [h3] at h; cases h
        | ok l =>
          rw [h3] at h; cases h
          exact .cons ⟨k, h1, h2⟩ (lookupTables_ok h3)

theorem lookupTables_total {T : Tables} : ∀ {us : List Str},
    (∀ u ∈ us, ∃ k t, parseTableName u = some k ∧ dget T k = some t) → ∃ ts, lookupTables T us = .ok ts
  | [], _ => ⟨[], rfl⟩
  | u :: us, h => by
    obtain ⟨k, t, h1, h2⟩ := h u (by simp)
    obtain ⟨ts, h3⟩ := lookupTables_total (T := T) (us := us) fun v hv => h v (by simp [hv])
    exact ⟨t :: ts, by unfold lookupTables; rw [h1]; dsimp only; rw [h2]; dsimp only; rw [h3]⟩

theorem Spec.TablesOK.key_str {T : Tables} (hT : TablesOK T) {us : List Str} {ts : List TableMeta}
    (h : List.Forall₂ (fun u t => ∃ k, parseTableName u = some k ∧ dget T k = some t) us ts) :
    ts.map (fun t => t.key.str) = us ∧ ∀ t ∈ ts, dget T t.key = some t := by
  induction h with
  | nil => exact ⟨rfl, by simp⟩
  | cons h _ ih =>
    obtain ⟨k, h1, h2⟩ := h
    have hk := hT.key_eq _ _ (dget_some_mem h2)
    rename_i u t us ts _
    have hk : t.key = k := hk
    refine ⟨by rw [List.map_cons, ih.1, hk, parse_str h1], fun t' ht => ?_⟩
    rcases List.mem_cons.1 ht with rfl | ht
    · rw [hk]; exact h2
    · exact ih.2 t' ht

/-- What `toposort` of loaded tables returns. -/
theorem metaToposort_spec {T : Tables} (hT : TablesOK T) :
    (∃ ts, metaToposort T = .ok ts ∧ ts.Perm (T.map Prod.snd) ∧ (ts.map TableMeta.key).Nodup ∧
      (∀ a b, Ref T a b → (dget T b).isSome → Before (ts.map TableMeta.key) b a) ∧
      ∀ a, ¬ Relation.TransGen (fun a b => Ref T a b ∧ (dget T b).isSome) a a) ∨
    (metaToposort T = .error .cycle ∧
      ∃ a, Relation.TransGen (fun a b => Ref T a b ∧ (dget T b).isSome) a a) := by
  have hG := asGraph_isGraph hT
  have hedge : ∀ u v, Relation.TransGen (Edge (asGraph T [])) u v →
      ∃ a b, u = a.str ∧ v = b.str ∧ '.' ∉ a.1 ∧ '.' ∉ b.1 ∧
        Relation.TransGen (fun a b => Ref T a b ∧ (dget T b).isSome) a b := by
    have hdot : ∀ {k : Key}, (dget T k).isSome → '.' ∉ k.1 := fun {k} hk => by
      obtain ⟨t, ht⟩ := Option.isSome_iff_exists.1 hk
      exact hT.no_dot k t (dget_some_mem ht)
    intro u v h
    induction h with
    | single h =>
      obtain ⟨k, k', rfl, rfl, h3, -, -, h6⟩ := (asGraph_edge hT).1 h
      exact ⟨k, k', rfl, rfl, hdot (ref_isSome hT h3), hdot h6, .single ⟨h3, h6⟩⟩
    | tail _ h ih =>
      obtain ⟨k, k', h1, rfl, h3, -, -, h6⟩ := (asGraph_edge hT).1 h
      obtain ⟨a, b, ha, hb, hda, hdb, hab⟩ := ih
      have : b = k := str_inj hdb (hdot (ref_isSome hT h3)) (by rw [← hb, ← h1])
      subst this
      exact ⟨a, k', ha, rfl, hda, hdot h6, hab.tail ⟨h3, h6⟩⟩
  have hedge' : ∀ a b, Relation.TransGen (fun a b => Ref T a b ∧ (dget T b).isSome) a b →
      Relation.TransGen (Edge (asGraph T [])) a.str b.str := by
    intro a b h
    induction h with
    | single h => exact .single ((asGraph_edge hT).2 ⟨_, _, rfl, rfl, h.1, by simp, by simp, h.2⟩)
    | tail _ h ih => exact ih.tail ((asGraph_edge hT).2 ⟨_, _, rfl, rfl, h.1, by simp, by simp, h.2⟩)
  by_cases hc : ∃ u, OnCycle (asGraph T []) u
  · right
    refine ⟨?_, ?_⟩
    · unfold metaToposort
      rw [(c06_toposort_fails_iff_cycle hG).2 hc]
    · obtain ⟨u, hu⟩ := hc
      obtain ⟨a, b, ha, hb, hda, hdb, hab⟩ := hedge u u hu
      have : a = b := str_inj hda hdb (by rw [← ha, ← hb])
      subst this
      exact ⟨a, hab⟩
  · left
    obtain ⟨q, hq⟩ : ∃ q, toposort (asGraph T []) = .ok q := by
      rcases toposort_spec hG with ⟨q, h1, -⟩ | ⟨h1, u, -, h2⟩
      · exact ⟨q, h1⟩
      · exact absurd ((c06_toposort_fails_iff_cycle hG).1 h1) hc
    obtain ⟨h1, h2⟩ := c06_toposort_sorted hG hq
    have hnode : ∀ u ∈ q, ∃ k t, parseTableName u = some k ∧ dget T k = some t := by
      intro u hu
      obtain ⟨k, h3, -, rfl⟩ := (asGraph_node hT).1 (h1.mem_iff.1 hu)
      obtain ⟨t, ht⟩ := Option.isSome_iff_exists.1 h3
      exact ⟨k, t, parse_of_nodot (hT.no_dot k t (dget_some_mem ht)), ht⟩
    obtain ⟨ts, hts⟩ := lookupTables_total hnode
    have hm : metaToposort T = .ok ts := by unfold metaToposort; rw [hq]; exact hts
    have hts' := hT.key_str (lookupTables_ok hts)
    have hqnd : q.Nodup := h1.nodup_iff.2 hG.keys_nodup
    have hnd : (ts.map TableMeta.key).Nodup := by
      rw [← hts'.1, show ts.map (fun t => t.key.str) = (ts.map TableMeta.key).map Key.str by simp] at hqnd
      exact List.Nodup.of_map _ hqnd
    have hTnd : (T.map Prod.snd).Nodup := by
      have : (T.map Prod.snd).map TableMeta.key = T.map Prod.fst := by
        rw [List.map_map]
        exact List.map_congr_left fun p hp => hT.key_eq p.1 p.2 hp
      exact List.Nodup.of_map _ (by rw [this]; exact hT.keys_nodup)
    refine ⟨ts, hm, ?_, hnd, fun a b hab hb => ?_, fun a ha => hc ⟨a.str, hedge' a a ha⟩⟩
    · refine (List.perm_ext_iff_of_nodup (List.Nodup.of_map _ hnd) hTnd).2 fun t => ⟨fun ht => ?_, fun ht => ?_⟩
      · exact List.mem_map.2 ⟨_, dget_some_mem (hts'.2 t ht), rfl⟩
      · obtain ⟨⟨k, t'⟩, h3, rfl⟩ := List.mem_map.1 ht
        have h4 : k.str ∈ q := h1.mem_iff.2 ((asGraph_node hT).2
          ⟨k, by rw [hT.get.2 h3]; rfl, by simp, rfl⟩)
        rw [← hts'.1] at h4
        obtain ⟨t2, h5, h6⟩ := List.mem_map.1 h4
        have h7 := hts'.2 t2 h5
        have h8 := str_inj (hT.no_dot _ _ (dget_some_mem h7)) (hT.no_dot _ _ h3) h6
        rw [h8, hT.get.2 h3] at h7
        cases h7
        exact h5
    · have h3 := h2 a.str b.str ((asGraph_edge hT).2 ⟨a, b, rfl, rfl, hab, by simp, by simp, hb⟩)
      rw [← hts'.1] at h3
      obtain ⟨l₁, l₂, l₃, e⟩ := h3
      obtain ⟨x1, x2, rfl, e1, e2⟩ := List.map_eq_append_iff.1 e
      obtain ⟨tb, x3, rfl, e3, e4⟩ := List.map_eq_cons_iff.1 e2
      obtain ⟨x4, x5, rfl, e5, e6⟩ := List.map_eq_append_iff.1 e4
      obtain ⟨ta, x6, rfl, e7, e8⟩ := List.map_eq_cons_iff.1 e6
      obtain ⟨t0, ht0⟩ := Option.isSome_iff_exists.1 hb
      obtain ⟨t1, ht1⟩ := Option.isSome_iff_exists.1 (ref_isSome hT hab)
      have f1 : tb.key = b := str_inj (hT.no_dot _ _ (dget_some_mem (hts'.2 tb (by simp))))
        (hT.no_dot _ _ (dget_some_mem ht0)) e3
      have f2 : ta.key = a := str_inj (hT.no_dot _ _ (dget_some_mem (hts'.2 ta (by simp))))
        (hT.no_dot _ _ (dget_some_mem ht1)) e7
      refine ⟨x1.map TableMeta.key, x4.map TableMeta.key, x6.map TableMeta.key, ?_⟩
      simp [f1, f2]

end Subsetter
