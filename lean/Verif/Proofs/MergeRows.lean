import Verif.Proofs.MergeWorks
import Verif.Spec.MergeCompact

/- The rows written by a run that merges, without and with compaction. -/
namespace Subsetter
open Spec Props

variable {σ : Type} {C : RunConfig} {D : Setting σ} {p : Plan} {S : DbState} {s : σ} {X : Dict Str TableMeta}

/-- Without compaction rows are appended with keys and references moved. -/
theorem merge_moved {cfg : PlannerConfig} (hR : MergesRun C D p cfg X) (hX : (sample C D p S s).schema = X) (hno : ¬ Compacts C)
    (hS : Sound D.dstDb D.computed S) :
    (sample C D p S s).err = none ∧ (∀ Y ∈ (sample C D p S s).hist, Intact X Y) ∧
    (∀ k, (∀ n ∈ dkeys p.queries, ¬ DestOf C.remap n k) → (sample C D p S s).final k = S k) ∧
    ∃ Smp off, IsSample D.engine (dbTables D.srcDb) D.src p Smp ∧
      ∀ n ∈ dkeys p.queries, ∀ k t kd, parseTableName n = some k → (n, t) ∈ D.srcDb → DestOf C.remap n kd →
        ∃ new, (sample C D p S s).final kd = S kd ++ new ∧
          (n ∉ p.passthrough → (∀ c ∈ t.primaryKey, IsOffset (S kd) c (off n)) ∧
            List.Forall₂ (MovedRow p off n t) (Smp k) new) ∧
          (n ∈ p.passthrough → t.primaryKey ≠ [] → ∀ r ∈ Smp k, ∃ r' ∈ S kd ++ new, ∀ c ∈ t.primaryKey, r'.get c = r.get c) := by
  obtain ⟨h1, h2, h3, order, Smp, ids, T, mult, compact, offs, off, h4, h5⟩ := merge_works (s := s) hR hX hS
  have hco : ∀ d c, ¬ IsCompacted compact d c := fun d c h => hno (compacts_of h4 h)
  refine ⟨h1, h2, h3, Smp, off, h4.sample, fun n hn k t kd hk ht hd => ?_⟩
  obtain ⟨new, g1, g2, g3⟩ := h5 n hn k t kd hk ht hd
  refine ⟨new, g1, fun hp => ⟨(g2 hp).1, ?_⟩, g3⟩
  refine zip_forall₂ (h4.ids k).1 (g2 hp).2 ?_
  rintro i r r' ⟨row, i1, i2⟩
  have hkept : ∀ c ∈ t.columns, row.get c = r.get c := by
    refine fun c hc => i1.kept c hc (hco k c) ?_
    rintro d dc ⟨-, -, -, -, -, -, h⟩
    exact hco d dc h
  refine ⟨i2.columns, fun c hc => ?_, fun fk hfk hnb c hc => ?_, fun c hc e1 e2 => ?_⟩
  · rw [i2.key c hc, hkept c (hR.mergeKeys.columns n hn t ht c hc)]
  · rw [i2.refs fk hfk hnb c hc, hkept c ((hR.columns n t ht fk hfk).1 c hc)]
  · rw [i2.others c hc e1 e2, hkept c hc]

/-- With compaction of primary keys they are appended with new keys. -/
theorem merge_renumbered {cfg : PlannerConfig} (hR : MergesRun C D p cfg X) (hX : (sample C D p S s).schema = X)
    (hpk : C.compact.primaryKeys = true) (hS : Sound D.dstDb D.computed S) :
    (sample C D p S s).err = none ∧ (∀ Y ∈ (sample C D p S s).hist, Intact X Y) ∧
    (∀ k, (∀ n ∈ dkeys p.queries, ¬ DestOf C.remap n k) → (sample C D p S s).final k = S k) ∧
    ∃ Smp ids off, IsSample D.engine (dbTables D.srcDb) D.src p Smp ∧
      (∀ k, (ids k).length = (Smp k).length ∧ FillsFrom C.compact.startKey (ids k)) ∧
      ∀ n ∈ dkeys p.queries, ∀ k t kd, parseTableName n = some k → (n, t) ∈ D.srcDb → DestOf C.remap n kd →
        ∃ new, (sample C D p S s).final kd = S kd ++ new ∧
          (n ∉ p.passthrough → (∀ c ∈ t.primaryKey, IsOffset (S kd) c (off n)) ∧
            List.Forall₂ (RenumberedRow p Smp ids off n t) ((ids k).zip (Smp k)) new) ∧
          (n ∈ p.passthrough → t.primaryKey ≠ [] → ∀ r ∈ Smp k, ∃ r' ∈ S kd ++ new, ∀ c ∈ t.primaryKey, r'.get c = r.get c) := by
  obtain ⟨h1, h2, h3, order, Smp, ids, T, mult, compact, offs, off, h4, h5⟩ := merge_works (s := s) hR hX hS
  have hok := hR.ok
  have hfo := hR.lookups
  have hK := hR.mergeKeys
  obtain ⟨hP, hdb⟩ := hR.planned_db
  obtain ⟨T0, hI, hpi, hTdb⟩ := planned_from hok.src hR.extra hR.targets hR.plan
  obtain ⟨ign, pass, T₁, T₂, found, ord, hp⟩ := planning hI hpi
  have hcomp : ∀ d c, IsCompacted compact d c ↔ ∃ t, (d, t) ∈ T ∧ t.primaryKey = [c] ∧ c ∈ t.intColumns ∧ d.1 ++ '.' :: d.2 ∉ p.passthrough := by
    intro d c
    rw [h4.derived.compact d c]
    constructor
    · rintro (⟨tn, cols, e1, e2, -⟩ | ⟨t, e1, e2, e3, e4, -⟩)
      · rw [hR.merges.compactColumns tn cols e1] at e2; cases e2
      · exact ⟨t, e1, e2, e3, e4⟩
    · rintro ⟨t, e1, e2, e3, e4⟩
      exact .inr ⟨t, e1, e2, e3, e4, .inl hpk⟩
  refine ⟨h1, h2, h3, Smp, ids, off, h4.sample, h4.ids, fun n hn k t kd hk ht hd => ?_⟩
  obtain ⟨new, g1, g2, g3⟩ := h5 n hn k t kd hk ht hd
  refine ⟨new, g1, fun hp' => ⟨(g2 hp').1, ?_⟩, g3⟩
  have hT := known_table hok hfo h4 hn hk ht
  have hkn : k.1 ++ '.' :: k.2 = n := parse_str hk
  have hplanned : ∀ {n k}, n ∈ dkeys p.queries → parseTableName n = some k → ∃ q, Planned p k q := by
    intro n k h h'
    obtain ⟨⟨m, q⟩, e1, e2⟩ := List.mem_map.1 h
    dsimp only at e2
    subst e2
    exact ⟨q, m, e1, h'⟩
  obtain ⟨c0, i1, i2, i3, i4⟩ := hK.key n hn hp' k t hk ht
  refine forall₂_mem (g2 hp').2 ?_
  rintro ⟨i, r⟩ r' hx ⟨row, j1, j2⟩
  dsimp only at j1 ⊢
  refine ⟨j2.columns, fun c hc => ?_, fun fk hfk hnb c hc => ?_, fun c hc e1 e2 => ?_⟩
  · have hc' : c = c0 := by rw [i1] at hc; exact List.mem_singleton.1 hc
    rw [j2.key c hc, j1.own c (hK.columns n hn t ht c hc) ((hcomp k c).2 ⟨t, dget_some_mem hT, by rw [i1, hc'], by rw [hc']; exact i2,
      by rw [hkn]; exact hp'⟩)]
    rfl
  · have hbn := (hP n hn t ht fk hfk).1
    obtain ⟨kb, tb, e1, e2⟩ := hdb _ hbn
    have e := parse_of_nodot (k := (fk.dstSchema, fk.dstTable)) (hok.src.fk_cols n t ht fk hfk).2.2
    rw [show Key.str (fk.dstSchema, fk.dstTable) = fk.dstSchema ++ '.' :: fk.dstTable from rfl, e1] at e
    cases e
    obtain ⟨⟨c1, f1⟩, f2⟩ := hK.single n hn t ht fk hfk hnb
    have f2 := f2 tb e2
    obtain ⟨d, f3, f4, f5, -⟩ := hK.key _ hbn hnb _ tb e1 e2
    rw [f3] at f2
    have e : c = c1 := by rw [f1] at hc; exact List.mem_singleton.1 hc
    subst e
    have hTb := known_table hok hfo h4 hbn e1 e2
    have hcd : IsCompacted compact (fk.dstSchema, fk.dstTable) d := (hcomp _ _).2 ⟨tb, dget_some_mem hTb, f3, f4, hnb⟩
    have hzip : (c, d) ∈ fk.columns.zip fk.dstColumns := by rw [f1, f2]; simp
    have hcol := (hR.columns n t ht fk hfk).1 c hc
    have hnc : ¬ IsCompacted compact k c := by
      rintro h
      obtain ⟨t', a1, a2, -⟩ := (hcomp k c).1 h
      have := dget_of_mem h4.derived.tables a1
      rw [hT] at this
      cases this
      rw [i1] at a2
      cases a2
      exact i4 fk hfk hc
    have hpt : PointsTo T compact k c (fk.dstSchema, fk.dstTable) d := ⟨t, fk, hT, hfk, rfl, hzip, hcd⟩
    have hone : ∀ d' dc', PointsTo T compact k c d' dc' → d' = (fk.dstSchema, fk.dstTable) ∧ dc' = d := by
      rintro d' dc' ⟨t', fk', a1, a2, rfl, a3, -⟩
      rw [hT] at a1
      cases a1
      exact hK.simple.one n hn t ht fk' a2 fk hfk c dc' d a3 hzip
    by_cases hnull : r.get c = .null
    · refine .inl ⟨hnull, ?_⟩
      rw [j2.refs fk hfk hnb c hc, j1.lost c hcol hnc _ d hpt hone fun m _ => .inl hnull]
      rfl
    · right
      have hu : UsedFk cfg T0 k fk (fk.dstSchema, fk.dstTable) := by
        obtain ⟨q, hq⟩ := hplanned hn hk
        obtain ⟨t', ht'⟩ := Option.isSome_iff_exists.1 (hp.isSome_iff.1 (hp.shape.inT hp.ok (hp.planned_iff.1 ⟨q, hq⟩)))
        have a1 := hTdb k t' (dget_some_mem ht')
        rw [hkn] at a1
        refine .inl ⟨.inl ⟨t, db_same hok.src a1 ht ▸ dget_some_mem ht', hfk, rfl⟩, ?_⟩
        rintro ⟨y, hy, -⟩
        rw [hR.ignored] at hy; cases hy
      have hrs := (List.of_mem_zip hx).2
      have hin := c07_sample_from_source hI hpi hR.keys h4.sample (hplanned hn hk) r hrs
      have hkt : (t.schema, t.name) = k :=
        str_inj (k := (t.schema, t.name)) (hok.src.no_dot _ t ht) (parse_fst_nodot hk)
          (by rw [parse_str hk]; exact (hok.src.name_eq _ t ht).symm)
      obtain ⟨m, a1, a2⟩ := c07_referential_integrity_partial hI hpi hR.all hR.keys h4.sample hu (hplanned hn hk) (hplanned hbn e1) r hrs
        (hR.source k fk _ ⟨n, t, ht, hkt, hfk, rfl⟩ r hin (by rw [f1]; intro a ha; rw [List.mem_singleton.1 ha]; exact hnull))
      obtain ⟨-, a3⟩ := a2 (c, d) hzip
      obtain ⟨a, ha, rfl⟩ := List.getElem_of_mem a1
      have hl := (h4.ids (fk.dstSchema, fk.dstTable)).1
      have hy : ((ids (fk.dstSchema, fk.dstTable))[a]'(by omega), (Smp (fk.dstSchema, fk.dstTable))[a]) ∈
          (ids (fk.dstSchema, fk.dstTable)).zip (Smp (fk.dstSchema, fk.dstTable)) :=
        List.mem_iff_getElem.2 ⟨a, by rw [List.length_zip]; omega, by simp⟩
      refine ⟨_, hy, fun d' hd' => ?_, ?_⟩
      · rw [f2, List.mem_singleton] at hd'
        rw [hd']
        exact a3.symm
      · rw [j2.refs fk hfk hnb c hc, j1.found c hcol hnc _ d hpt hone _ _ hy hnull a3]
        rfl
  · rw [j2.others c hc e1 e2]
    refine j1.kept c hc (fun h => ?_) ?_
    · obtain ⟨t', a1, a2, -⟩ := (hcomp k c).1 h
      have := dget_of_mem h4.derived.tables a1
      rw [hT] at this
      cases this
      exact e1 (by rw [a2]; simp)
    · rintro d dc ⟨t', fk, a1, a2, rfl, a3, a4⟩
      rw [hT] at a1
      cases a1
      obtain ⟨-, -, -, -, a5⟩ := (hcomp _ _).1 a4
      exact e2 fk a2 a5 (List.of_mem_zip a3).1

end Subsetter
