import Verif.Proofs.MergeInto

/- Runs that merge samples into a database that has the same tables as the source. -/
namespace Subsetter
open Spec Props

variable {σ : Type} {C : RunConfig} {D : Setting σ} {p : Plan} {S : DbState} {s : σ}

/-- References of merged tables to merged tables are integers or NULL. -/
theorem ref_integral (hok : RunOK C D p) (hdb : ∀ n ∈ dkeys p.queries, n ∈ dkeys D.srcDb) {X : Dict Str TableMeta} (hT : TwinsIn C D p X)
    (hP : RefsPlanned D p) (hK : MergeKeys D p) (hsrc : Intact D.srcDb D.src) {n : Str} {k kd : Key} {t td : TableMeta}
    (hc : Copied C D p X n k kd t td) {fk : ForeignKey} (hfk : fk ∈ t.foreignKeys)
    (hnb : fk.dstSchema ++ '.' :: fk.dstTable ∉ p.passthrough) {c : Str} (hcc : c ∈ fk.columns) {r : Row} (hr : r ∈ D.src k) :
    Integral (r.get c) := by
  obtain ⟨tb, kdb, tdb, hb⟩ := hP.parent hok hdb hT hc.planned hc.source hfk
  obtain ⟨⟨c', h1⟩, h2⟩ := hK.single n hc.planned t hc.source fk hfk hnb
  have h2 := h2 tb hb.source
  obtain ⟨d, hpkb, -, hnat, -⟩ := hK.key _ hb.planned hnb _ tb hb.name hb.source
  rw [h1, List.mem_singleton] at hcc
  subst hcc
  have hk : (t.schema, t.name) = k :=
    str_inj (k := (t.schema, t.name)) (hok.src.no_dot _ t hc.source) (parse_fst_nodot hc.name)
      (by rw [parse_str hc.name]; exact (hok.src.name_eq _ t hc.source).symm)
  by_cases hnull : r.get c = .null
  · exact .inl hnull
  obtain ⟨m, h3, h4⟩ := hsrc k fk _ ⟨n, t, hc.source, hk, hfk, rfl⟩ r hr (by
    rw [h1]; intro a ha; rw [List.mem_singleton.1 ha]; exact hnull)
  obtain ⟨-, h5⟩ := h4 (c, d) (by rw [h1, h2, hpkb]; simp)
  obtain ⟨v, -, h6⟩ := hnat m h3
  exact .inr ⟨v, h5.trans h6⟩


/-- Tables of the destination respect their definitions. -/
theorem sound_holds (hok : RunOK C D p) {X : Dict Str TableMeta} (hT : TwinsIn C D p X) (h : Sound D.dstDb D.computed S) {n : Str}
    {k kd : Key} {t td : TableMeta} (hc : Copied C D p X n k kd t td) : TableHolds (target D kd td) (S kd) := by
  by_cases hm : kd.1 ++ '.' :: kd.2 ∈ dkeys D.dstDb
  · obtain ⟨⟨m, td'⟩, h1, h2⟩ := List.mem_map.1 hm
    dsimp only at h2
    subst h2
    obtain rfl := db_same hT.dbOK hc.schema (hT.sub _ h1)
    have e : (td.schema, td.name) = kd :=
      str_inj (k := (td.schema, td.name)) (hok.dst.no_dot _ td h1) (destOf_nodot hc.dest) (hok.dst.name_eq _ td h1).symm
    have := h.tables _ td h1
    rw [e] at this
    unfold target
    rw [if_pos hm]
    exact this
  · rw [h.elsewhere kd]
    · exact ⟨fun _ => List.nodup_nil, by simp⟩
    · rintro ⟨m, td', h1, rfl⟩
      exact hm (by rw [← hok.dst.name_eq m td' h1]; exact List.mem_map_of_mem (f := Prod.fst) h1)

/-- A run that succeeds keeps primary keys unique and rows complete. -/
theorem run_holds (hok : RunOK C D p) (herr : (sample C D p S s).err = none) {n : Str} {k kd : Key} {t td : TableMeta}
    (hc : Copied C D p (sample C D p S s).schema n k kd t td) (h : TableHolds (target D kd td) (S kd)) :
    TableHolds (target D kd td) ((sample C D p S s).final kd) := by
  obtain ⟨order, B, Smp, ids, T, mult, compact, offs, h1, h2, -⟩ := c61_run hok herr
  obtain ⟨ch, rows, bs, g1, -, -, g3⟩ := h2 n k kd t td hc
  have hB : TableHolds (target D kd td) (B kd) := by
    by_cases ht : C.truncate = true
    · rw [h1.begins.emptied ht kd hc.reached]
      exact ⟨fun _ => List.nodup_nil, by simp⟩
    · rw [h1.begins.kept kd fun h => absurd h ht]
      exact h
  have := commits_facts g3 g1.fitting hB.1 hB.2
  exact ⟨this.uniq, this.shape⟩


/-- What a run needs for merging rows, with or without compaction; `X` are the tables of the destination afterwards. -/
structure MergesRun (C : RunConfig) (D : Setting σ) (p : Plan) (cfg : PlannerConfig) (X : Dict Str TableMeta) : Prop where
  ok : RunOK C D p
  merges : Merges C
  compact : Compacts C → CompactSound C D p
  extra : ∀ x ∈ cfg.extraFks, x.Valid
  targets : [] ∉ dkeys cfg.targets
  plan : plan D.fnmatch D.srcDb cfg = .ok p
  ignored : cfg.ignoreFks = []
  dependencies : cfg.includeDependencies = true ∨ cfg.ignore = []
  all : ∀ n y, dget cfg.targets n = some y → y.all = true → y.amount = none
  keys : PkOK (dbTables D.srcDb) D.src
  source : Intact D.srcDb D.src
  columns : FkColumnsOK D
  twins : TwinsIn C D p X
  mergeKeys : MergeKeys D p

theorem MergesRun.planned_db {cfg : PlannerConfig} {X : Dict Str TableMeta} (hR : MergesRun C D p cfg X) :
    RefsPlanned D p ∧ ∀ n ∈ dkeys p.queries, ∃ k t, parseTableName n = some k ∧ (n, t) ∈ D.srcDb := by
  obtain ⟨T, hI, hpi, hTdb⟩ := planned_from hR.ok.src hR.extra hR.targets hR.plan
  obtain ⟨ign, pass, T₁, T₂, found, ord, hp⟩ := planning hI hpi
  refine ⟨refs_planned hR.ok.src hp hTdb hR.ignored hR.dependencies, fun n hn => ?_⟩
  rw [show dkeys p.queries = _ from hp.shape.keys, List.mem_map] at hn
  obtain ⟨k', h1, rfl⟩ := hn
  obtain ⟨t', ht⟩ := Option.isSome_iff_exists.1 (hp.isSome_iff.1 (hp.shape.inT hp.ok h1))
  exact ⟨k', t', parse_of_nodot (hp.nodot h1), hTdb k' t' (dget_some_mem ht)⟩

theorem MergesRun.lookups {cfg : PlannerConfig} {X : Dict Str TableMeta} (hR : MergesRun C D p cfg X) : LookupsFollow C D p :=
  ⟨hR.merges.infer, fun _ => hR.mergeKeys.simple, fun _ n hn t ht fk hfk => (hR.planned_db.1 n hn t ht fk hfk).1,
    fun n cs h c hc => by rw [hR.merges.compactColumns n cs h] at hc; cases hc⟩

/-- Such a run succeeds, keeps foreign keys, and appends rows with compacted identifiers moved. -/
theorem merge_works {cfg : PlannerConfig} {X : Dict Str TableMeta} (hR : MergesRun C D p cfg X) (hX : (sample C D p S s).schema = X)
    (hS : Sound D.dstDb D.computed S) :
    (sample C D p S s).err = none ∧ (∀ Y ∈ (sample C D p S s).hist, Intact X Y) ∧
    (∀ k, (∀ n ∈ dkeys p.queries, ¬ DestOf C.remap n k) → (sample C D p S s).final k = S k) ∧
    ∃ order Smp ids T mult compact offs off, Copying C D p S X order S Smp ids T mult compact offs ∧
      ∀ n ∈ dkeys p.queries, ∀ k t kd, parseTableName n = some k → (n, t) ∈ D.srcDb → DestOf C.remap n kd →
        ∃ new, (sample C D p S s).final kd = S kd ++ new ∧
          (n ∉ p.passthrough → (∀ c ∈ t.primaryKey, IsOffset (S kd) c (off n)) ∧
            List.Forall₂ (fun x r' => ∃ row, CompactedRow T compact Smp ids k t.columns x.2 x.1 row ∧ MovedRow p off n t row r')
              ((ids k).zip (Smp k)) new) ∧
          (n ∈ p.passthrough → t.primaryKey ≠ [] → ∀ r ∈ Smp k, ∃ r' ∈ S kd ++ new, ∀ c ∈ t.primaryKey, r'.get c = r.get c) := by
  have hfo := hR.lookups
  have hsound := hR.compact
  obtain ⟨hok, hC, -, hex, htg, hplan, hign, hdep, hall, hpk, hsrc, hcols, hT, hK⟩ := hR
  have h0 := hS.intact
  have hnew := hS.elsewhere
  have hold : ∀ n k kd t td, Copied C D p X n k kd t td → TableHolds (target D kd td) (S kd) :=
    fun _ _ _ _ _ hc => sound_holds hok hT hS hc
  have hsch := hX
  obtain ⟨T, hI, hpi, hTdb⟩ := planned_from hok.src hex htg hplan
  obtain ⟨ign, pass, T₁, T₂, found, ord, hp⟩ := planning hI hpi
  have hP : RefsPlanned D p := refs_planned hok.src hp hTdb hign hdep
  have hget : ∀ n ∈ dkeys p.queries, ∀ k, parseTableName n = some k → ∃ t, (k, t) ∈ T ∧ (n, t) ∈ D.srcDb := by
    intro n hn k hk
    rw [show dkeys p.queries = _ from hp.shape.keys, List.mem_map] at hn
    obtain ⟨k', h1, h2⟩ := hn
    have e : k' = k := str_inj (hp.nodot h1) (parse_fst_nodot hk) (h2.trans (parse_str hk).symm)
    subst e
    obtain ⟨t', ht⟩ := Option.isSome_iff_exists.1 (hp.isSome_iff.1 (hp.shape.inT hp.ok h1))
    have := hTdb k' t' (dget_some_mem ht)
    rw [show k'.1 ++ '.' :: k'.2 = n from h2] at this
    exact ⟨t', dget_some_mem ht, this⟩
  have hparse : ∀ n ∈ dkeys p.queries, ∃ k, parseTableName n = some k := by
    intro n hn
    rw [show dkeys p.queries = _ from hp.shape.keys, List.mem_map] at hn
    obtain ⟨k', h1, rfl⟩ := hn
    exact ⟨k', parse_of_nodot (hp.nodot h1)⟩
  have hdb : ∀ n ∈ dkeys p.queries, n ∈ dkeys D.srcDb := by
    intro n hn
    obtain ⟨k, hk⟩ := hparse n hn
    obtain ⟨t, -, h⟩ := hget n hn k hk
    exact List.mem_map_of_mem (f := Prod.fst) h
  have hcopied : ∀ n ∈ dkeys p.queries, ∃ k kd t td, Copied C D p X n k kd t td := by
    intro n hn
    obtain ⟨k, hk⟩ := hparse n hn
    obtain ⟨t, -, h⟩ := hget n hn k hk
    obtain ⟨kd, td, h⟩ := hT.copied hn hk h
    exact ⟨k, kd, t, td, h⟩
  have hsrck : ∀ {n k kd t td}, Copied C D p X n k kd t td → (t.schema, t.name) = k := by
    intro n k kd t td hc
    exact str_inj (k := (t.schema, t.name)) (hok.src.no_dot _ t hc.source) (parse_fst_nodot hc.name)
      (by rw [parse_str hc.name]; exact (hok.src.name_eq _ t hc.source).symm)
  have hpkt : ∀ kd td, (target D kd td).pk = td.primaryKey := by intro kd td; unfold target; split <;> rfl
  have hstr : ∀ n, n ∉ p.passthrough → strategyFor C p n = .error := by
    intro n hn
    unfold strategyFor
    rw [if_neg fun h => hn h.2]
    exact hC.strategy
  have hskip : ∀ n, n ∈ p.passthrough → strategyFor C p n = .skip := by
    intro n hn
    unfold strategyFor
    rw [if_pos ⟨hC.merge, hn⟩]
  -- the run succeeds
  have herr : (sample C D p S s).err = none := by
    refine c79_succeeds hok hfo ?_ hI hpi (fun _ => hall) hpk (fun _ => hsrc) ?_ ?_ ?_
    · refine ⟨fun n hn => ⟨hdb n hn, hT.self n (.inr hn)⟩, fun k q hq y hy => ?_, hp.shape.acyclic hp.ok, fun n hn => ?_,
        hT.differ, hT.circles, fun _ => ?_, fun h => ?_⟩
      · rcases hp.shape.refs_cases hp.ok hq hy with rfl | ⟨pre, post, d, he, hd, rfl⟩
        · exact ⟨q, hq⟩
        · exact (hp.planned_iff (k := d)).2 (by rw [he]; simp [hd])
      · obtain ⟨k, kd, t, td, h⟩ := hcopied n hn
        exact ⟨kd, h.dest⟩
      · intro n hn t ht _ fk hfk
        refine ⟨(hP n hn t ht fk hfk).1, (hcols n t ht fk hfk).2, fun d m td hd hm e c hc => ?_⟩
        obtain ⟨tb, kdb, tdb, hb⟩ := hP.parent hok hdb hT hn ht hfk
        have e' := destOf_unique hd hb.dest
        subst e'
        subst e
        have hm' := hT.sub _ hm
        rw [hok.dst.name_eq m td hm] at hm'
        rw [db_same hT.dbOK hm' hb.schema, (hT.twin hb).1.columns]
        exact (hcols n t ht fk hfk).2 tb hb.source c hc
      · exact hT.srcCircles h
    · rw [hsch]
      refine ⟨fun n fs h h' => absurd (hC.filters n fs h) h', fun h => absurd h (by have := hC.once; omega),
        fun n c h => absurd h hC.not_multiplied, fun n cs h h' => absurd (hC.compactColumns n cs h) h',
        fun n t c h1 h2 h3 h4 h5 h => (hsound (h.imp_right fun h => .inl h.1)).keys n t c h1 h2 h3 h4 h5,
        fun h h' => (hsound h').pairs h, fun _ n hn _ => ⟨hcopied n hn, fun t ht fk hfk => (hP n hn t ht fk hfk).1⟩⟩
    · rw [hsch]
      intro n k kd t td hc
      have htw := (hT.twin hc).1
      have hcm := hT.computed hc
      have hfs := hC.filtersOf n
      refine ⟨fun ch hch r _ row _ s => ?_, fun c h hcc => ?_, fun h c ha _ => ?_, fun c hcc _ => ?_, fun c hcc => ?_, ?_, .inr hcm⟩
      · rw [hfs] at hch
        unfold constructFilter constructLoop at hch
        cases hch
        exact ⟨row, s, rfl⟩
      · refine .inr (.inr ⟨by rw [hfs]; simp, fun r hr => ?_⟩)
        rcases h with h | ⟨-, hn, h⟩
        · exact absurd h hC.not_multiplied
        rcases h with ⟨h1, -⟩ | ⟨kb, d, fk, hfk, k0, tb, tdb, h1, -, -, h2, -⟩
        · obtain ⟨c', g1, -, g2, -⟩ := hK.key n hc.planned hn k t hc.name hc.source
          rw [htw.single c' g1] at h1
          cases h1
          obtain ⟨v, -, h⟩ := g2 r hr
          exact .inr ⟨v, h⟩
        · exact ref_integral hok hdb hT hP hK hsrc hc hfk h2 (by rw [h1]; simp) hr
      · exact .inr (.inr ⟨by rw [hfs]; simp, hT.auto h n hc.planned k t kd td hc.name hc.source hc.dest hc.schema c ha⟩)
      · rw [htw.columns]; exact hcc
      · exact ⟨hK.columns n hc.planned t hc.source c ((htw.primaryKey c).1 hcc), by rw [hfs]; simp [omitted], by rw [hcm]; simp⟩
      · by_cases hn : n ∈ p.passthrough
        · exact .inl (hT.dialect.resolve_right fun h => by rw [h] at hn; cases hn)
        · exact .inr (hstr n hn)
    · rw [hsch]
      intro n k kd t td hc hst hne
      have htw := (hT.twin hc).1
      have hcm := hT.computed hc
      have hn : n ∉ p.passthrough := fun hn => by rw [hskip n hn] at hst; cases hst
      obtain ⟨c, g1, g2, g3, g4⟩ := hK.key n hc.planned hn k t hc.name hc.source
      refine ⟨⟨fun c => htw.primaryKey c, fun c hcc => ⟨hK.columns n hc.planned t hc.source c hcc,
        fun fs hfs f hf => ?_, by rw [hcm]; simp⟩, fun h => ?_, .inr (.inr ⟨hC.merge, hn, hC.startKey, c, by rw [g1]; simp, g3,
            .inl ⟨htw.single c g1, by rw [htw.intColumns]; exact g2⟩, ?_⟩), fun _ fk hfk h => ?_,
          fun _ r hr c' hcc => ?_⟩, ?_⟩
      · rw [hC.filters n fs hfs] at hf; cases hf
      · rw [hC.times n] at h; omega
      · rintro kb d ⟨fk, hfk, k0, tb, tdb, h1, -⟩
        exact absurd (by rw [h1]; simp) (g4 fk hfk)
      · obtain ⟨c', h1, h2⟩ := h
        rw [g1, List.mem_singleton] at h2
        exact absurd (h2 ▸ h1) (g4 fk hfk)
      · rw [g1, List.mem_singleton] at hcc
        obtain ⟨v, -, hv⟩ := g3 r hr
        rw [hcc, hv]
        exact fun h => (nomatch h)
      · have := (hold n k kd t td hc).1
        rw [hpkt] at this
        exact this hne
  have hfkb : ∀ {n k kd t td}, Copied C D p X n k kd t td → ∀ fk ∈ td.foreignKeys, ∃ fk0 ∈ t.foreignKeys,
      fk0.columns = fk.columns ∧ fk0.dstColumns = fk.dstColumns ∧ ∃ tb tdb,
      Copied C D p X (fk0.dstSchema ++ '.' :: fk0.dstTable) (fk0.dstSchema, fk0.dstTable) (fk.dstSchema, fk.dstTable) tb tdb := by
    intro n k kd t td hc fk hfk
    obtain ⟨fk0, h1, h2, h3, h4⟩ := (hT.twin hc).1.foreignKeys fk hfk
    obtain ⟨tb, kdb, tdb, hb⟩ := hP.parent hok hdb hT hc.planned hc.source h1
    have e := destOf_unique hb.dest h4
    subst e
    exact ⟨fk0, h1, h2, h3, tb, tdb, hb⟩
  refine ⟨herr, ?_, ?_⟩
  · -- foreign keys
    have hmir : Mirrored C D cfg T p (sample C D p S s).schema := by
      rw [hsch]
      intro n k kd t td hc fk hfk
      obtain ⟨fk0, h1, h2, h3, tb, tdb, hb⟩ := hfkb hc fk hfk
      have htw := (hT.twin hc).1
      have hcm := hT.computed hc
      refine ⟨fun c hcc => ⟨?_, fun fs hfs f hf => ?_, by rw [hcm]; simp⟩, fk0, _, _, ⟨n, t, hc.source, hsrck hc, h1, rfl⟩, ?_, h2, h3,
        hb.planned, hb.name, hb.dest, fun kb' tb' tdb' hb' c hcc => ⟨?_, fun fs hfs f hf => ?_, ?_⟩⟩
      · rw [← h2] at hcc
        exact (hcols n t hc.source fk0 h1).1 c hcc
      · rw [hC.filters n fs hfs] at hf; cases hf
      · obtain ⟨t', g1, g2⟩ := hget n hc.planned k hc.name
        rw [← db_same hok.src hc.source g2] at g1
        refine .inl ⟨.inl ⟨t, g1, h1, rfl⟩, ?_⟩
        rintro ⟨y, hy, -⟩
        rw [hign] at hy; cases hy
      · rw [← h3] at hcc
        exact (hcols n t hc.source fk0 h1).2 tb' hb'.source c hcc
      · rw [hC.filters _ fs hfs] at hf; cases hf
      · rw [hT.computed hb']; simp
    have hstab : RefsStable C D p (sample C D p S s).schema := by
      rw [hsch]
      intro a fk b hfk n k t td hc
      by_cases hn : n ∈ p.passthrough
      · exact .inr (hT.stable a fk b hfk n hc.planned hn hc.dest td hc.schema)
      · exact .inl (hstr n hn)
    have hfo : IdsFollow C D p (sample C D p S s).schema := by
      rw [hsch]
      refine ⟨hC.infer, fun _ => hK.simple, hfo.closed, hfo.named,
        fun n _ t _ fk _ _ e _ => ⟨⟨fun h => absurd h hC.not_multiplied, fun h => absurd h hC.not_multiplied⟩,
          fun h => absurd h hC.not_multiplied⟩, fun _ n k kd t td hc fk hfk nb kb tb tdb hb => ?_⟩
      · obtain ⟨fk0, h1, h2, h3, tb', tdb', hb'⟩ := hfkb hc fk hfk
        have e := hT.differ nb hb.planned _ hb'.planned _ hb.dest hb'.dest
        subst e
        by_cases hn : n ∈ p.passthrough
        · exact .inr ⟨.inl ((hP n hc.planned t hc.source fk0 h1).2 hn), .inl hn⟩
        by_cases hnb : fk0.dstSchema ++ '.' :: fk0.dstTable ∈ p.passthrough
        · refine .inr ⟨.inl hnb, .inr fun c hcc hpkc => ?_⟩
          obtain ⟨c', g1, -, -, g4⟩ := hK.key n hc.planned hn k t hc.name hc.source
          rw [(hT.twin hc).1.single c' g1] at hpkc
          cases hpkc
          exact absurd (by rw [h2]; exact hcc) (g4 fk0 h1)
        · obtain ⟨⟨c, g1⟩, g2⟩ := hK.single n hc.planned t hc.source fk0 h1 hnb
          obtain ⟨d, g3, g4, -⟩ := hK.key _ hb.planned hnb _ tb hb.name hb.source
          have htwb := (hT.twin hb).1
          refine .inl ⟨hn, hnb, c, d, by rw [← h2, g1], by rw [← h3, g2 tb hb.source, g3], g3, htwb.single d g3, ?_⟩
          rw [htwb.intColumns]; exact g4
    have := c74_always_intact_partial (s := s) hok (fun n hn => hT.self n (.inl hn)) hI hpi hall hpk hsrc hmir hstab hfo h0 hnew (by
      rw [hsch]
      exact hold)
    rwa [hsch] at this
  · -- rows
    obtain ⟨order, B, Smp, ids, T', mult, compact, offs, h1, h2, h3⟩ := c61_run hok herr
    have hB : B = S := by
      funext k
      exact h1.begins.kept k fun h => by rw [hC.truncate] at h; cases h
    subst hB
    rw [hsch] at h1 h2 h3
    obtain ⟨hoffp, off, hoff⟩ := merge_offsets hok hC hdb hT hP hK h1.derived
    refine ⟨fun k hk => h3 k fun n k' t td hc => hk n hc.planned hc.dest, order, Smp, ids, T', mult, compact, offs, off, h1, ?_⟩
    intro n hn k t kd hk ht hd
    obtain ⟨kd', td, hc⟩ := hT.copied hn hk ht
    have e := destOf_unique hd hc.dest
    subst e
    have htw := (hT.twin hc).1
    have hcm := hT.computed hc
    obtain ⟨ch, rows, bs, g1, g2, -, g3⟩ := h2 n k kd t td hc
    obtain ⟨hw, hrows⟩ := merge_rows hC h1.derived (h1.ids k).1 (hok.srcColumns n t ht) g1 g2 hcm
      fun c d dc h _ => lookups_unique hok hfo h1 hI hpi hpk hc h
    rw [hw] at g3
    by_cases hpass : n ∈ p.passthrough
    · rw [hskip n hpass] at g3
      have hf := g1.fitting
      rw [hw] at hf
      obtain ⟨new, i1, i2⟩ := commits_skip (hT.dialect.resolve_right fun h => by rw [h] at hpass; cases hpass)
        (fun c hcc => hK.columns n hn t ht c (by rw [hpkt] at hcc; exact (htw.primaryKey c).1 hcc)) g3 hf
        (hold n k kd t td hc).1
      refine ⟨new, i1, fun h => absurd hpass h, fun _ hne r hr => ?_⟩
      rw [hpkt, i1] at i2
      have hne : td.primaryKey ≠ [] := by
        obtain ⟨c, hcc⟩ := List.exists_mem_of_ne_nil _ hne
        exact List.ne_nil_of_mem ((htw.primaryKey c).2 hcc)
      obtain ⟨i, hx⟩ : ∃ i, (i, r) ∈ (ids k).zip (Smp k) := by
        obtain ⟨a, ha, rfl⟩ := List.getElem_of_mem hr
        have hl := (h1.ids k).1
        exact ⟨(ids k)[a]'(by omega), List.mem_iff_getElem.2 ⟨a, by rw [List.length_zip]; omega, by simp⟩⟩
      obtain ⟨b, j1, row, j3, j2⟩ := forall₂_mem_left hrows hx
      have hcol : ∀ c ∈ t.primaryKey, row.get c = r.get c := by
        have hnot : ∀ k' c, k'.1 ++ '.' :: k'.2 ∈ p.passthrough → ¬ IsCompacted compact k' c := by
          intro k' c hp' h
          rcases (h1.derived.compact _ _).1 h with ⟨tn, cols, e1, e2, -⟩ | ⟨-, -, -, -, e1, -⟩
          · rw [hC.compactColumns tn cols e1] at e2; cases e2
          · exact e1 hp'
        refine fun c hcc => j3.kept c (hK.columns n hn t ht c hcc)
          (hnot k c (by rw [show k.1 ++ '.' :: k.2 = n from parse_str hk]; exact hpass)) ?_
        rintro d dc ⟨t', fk, e1, e2, rfl, -, e3⟩
        rw [known_table hok hfo h1 hn hk ht] at e1
        cases e1
        exact hnot _ _ ((hP n hn t ht fk e2).2 hpass) e3
      obtain ⟨r', hr'⟩ := List.exists_mem_of_ne_nil _ (i2 hne b j1)
      unfold withKey keyOf at hr'
      rw [List.mem_filter, decide_eq_true_eq] at hr'
      refine ⟨r', hr'.1, fun c hcc => ?_⟩
      have := List.map_inj_left.1 hr'.2 c ((htw.primaryKey c).2 hcc)
      rw [this, j2 c (hK.columns n hn t ht c hcc), hoffp n k kd t td hc hpass, shiftVal_moved, hcol c hcc]
      show moved 0 (r.get c) = r.get c
      cases r.get c <;> simp [moved]
    · have hf := g1.fitting
      rw [hw] at hf
      obtain ⟨stored, i1, i2⟩ := c61_added g3 hf (.inl (hstr n hpass))
      obtain ⟨o1, o2, o3⟩ := hoff n k kd t td hc hpass
      refine ⟨stored, i1, fun _ => ⟨fun c hcc => (o1 c hcc).1, ?_⟩, fun h => absurd h hpass⟩
      refine forall₂_chain hrows i2 fun x out r' j1 j => ?_
      obtain ⟨j2, j3, -⟩ := j
      obtain ⟨row, j0, j1⟩ := j1
      have hval : ∀ c ∈ t.columns, r'.get c = moved ((dget ((dget offs kd).getD []) c).getD 0) (row.get c) := by
        intro c hcc
        have := j3 c hcc
        rw [j1 c hcc, shiftVal_moved] at this
        exact (Option.some.inj this).symm
      refine ⟨row, j0, ?_, fun c hcc => ?_, fun fk hfk hnb c hcc => ?_, fun c hcc hc1 hc2 => ?_⟩
      · rw [j2, hcm]
        have : (target D kd td).columns = t.columns := by unfold target; split <;> exact htw.columns
        rw [this]; simp
      · rw [hval c (hK.columns n hn t ht c hcc), (o1 c hcc).2]
      · rw [hval c ((hcols n t ht fk hfk).1 c hcc), o2 fk hfk hnb c hcc]
      · rw [hval c hcc, o3 c hc1 hc2]
        cases row.get c <;> simp [moved]


/-- Afterwards the destination is as sound as before. -/
theorem merge_sound {cfg : PlannerConfig} {X : Dict Str TableMeta} (hR : MergesRun C D p cfg X) (hX : (sample C D p S s).schema = X)
    (hS : Sound D.dstDb D.computed S) :
    Sound X D.computed (sample C D p S s).final ∧ ∀ k, ∃ new, (sample C D p S s).final k = S k ++ new := by
  obtain ⟨h1, h2, h3, _, _, _, _, _, _, _, _, -, h4⟩ := merge_works (s := s) hR hX hS
  have hok := hR.ok
  have hT := hR.twins
  have hsrc := hR.planned_db.2
  have hpre : ∀ k, ∃ new, (sample C D p S s).final k = S k ++ new := by
    intro k
    by_cases h : ∃ n ∈ dkeys p.queries, DestOf C.remap n k
    · obtain ⟨n, hn, hd⟩ := h
      obtain ⟨k0, t, hk, ht⟩ := hsrc n hn
      obtain ⟨new, h, -⟩ := h4 n hn k0 t k hk ht hd
      exact ⟨new, h⟩
    · exact ⟨[], by rw [List.append_nil]; exact h3 k fun n hn hd => h ⟨n, hn, hd⟩⟩
  refine ⟨⟨?_, fun k hk => ?_, fun n td ht => ?_⟩, hpre⟩
  · unfold RunResult.final
    cases hh : (sample C D p S s).hist with
    | nil => intro a fk b _ r hr; cases hr
    | cons a l => exact h2 a (by rw [hh]; simp)
  · rw [h3 k fun n hn hd => ?_]
    · refine hS.elsewhere k ?_
      rintro ⟨m, td, g1, g2⟩
      exact hk ⟨m, td, hT.sub _ g1, g2⟩
    · obtain ⟨k0, t, hk0, ht⟩ := hsrc n hn
      obtain ⟨kd, td, g⟩ := hT.copied hn hk0 ht
      have e := destOf_unique hd g.dest
      subst e
      exact hk ⟨_, td, g.schema, str_inj (k := (td.schema, td.name)) (hT.dbOK.no_dot _ td g.schema) (destOf_nodot g.dest)
        (hT.dbOK.name_eq _ td g.schema).symm⟩
  · by_cases h : ∃ m ∈ dkeys p.queries, DestOf C.remap m (td.schema, td.name)
    · obtain ⟨m, hm, hd⟩ := h
      obtain ⟨k0, t, hk0, htm⟩ := hsrc m hm
      obtain ⟨kd, td', g⟩ := hT.copied hm hk0 htm
      have e := destOf_unique hd g.dest
      subst e
      have e : td' = td := db_same hT.dbOK g.schema (by rw [hT.dbOK.name_eq n td ht] at ht; exact ht)
      subst e
      have := run_holds hok h1 (by rw [hX]; exact g) (sound_holds hok hT hS g)
      have hcomp := (hT.twin g).2
      unfold target at this
      rw [hcomp]
      split at this
      · rw [hcomp] at this
        exact this
      · exact this
    · rw [h3 _ fun m hm hd => h ⟨m, hm, hd⟩]
      rcases hT.added n td ht with g | ⟨m, hm, hd⟩
      · exact hS.tables n td g
      · exact absurd ⟨m, hm, hd⟩ h

/-- Merging can go on. -/
theorem merges_repeated {db : Dict Str TableMeta} {computed : Key → List Str} : ∀ {js : List (Job σ)} {S : DbState},
    Sound db computed S →
    (∀ j ∈ js, MergesRun j.config j.setting j.plan j.planned db ∧ j.config.create = false ∧ j.setting.dstDb = db ∧
      j.setting.computed = computed) →
    (∀ pre j post, js = pre ++ j :: post → (sample j.config j.setting j.plan (afterRuns pre S) j.start).err = none ∧
      ∀ X ∈ (sample j.config j.setting j.plan (afterRuns pre S) j.start).hist, Intact db X) ∧
    Sound db computed (afterRuns js S) ∧ ∀ k, ∃ new, afterRuns js S k = S k ++ new := by
  intro js
  induction js with
  | nil => exact fun hS _ => ⟨fun pre j post h => absurd h (by simp), hS, fun k => ⟨[], by simp [afterRuns]⟩⟩
  | cons j js ih =>
    intro S hS hj
    obtain ⟨hR, hcr, rfl, rfl⟩ := hj j (by simp)
    obtain ⟨h1, h2, -⟩ := merge_works (s := j.start) hR (schema_kept hcr) hS
    obtain ⟨h3, h4⟩ := merge_sound (s := j.start) hR (schema_kept hcr) hS
    obtain ⟨h5, h6, h7⟩ := ih h3 fun j' hj' => hj j' (by simp [hj'])
    refine ⟨fun pre j' post h => ?_, h6, fun k => ?_⟩
    · cases pre with
      | nil =>
        rw [List.nil_append] at h
        obtain ⟨rfl, -⟩ := List.cons.inj h
        exact ⟨h1, h2⟩
      | cons a pre =>
        rw [List.cons_append] at h
        obtain ⟨rfl, h'⟩ := List.cons.inj h
        exact h5 pre j' post h'
    · obtain ⟨new, e1⟩ := h4 k
      obtain ⟨new', e2⟩ := h7 k
      exact ⟨new ++ new', by rw [afterRuns, e2, e1, List.append_assoc]⟩

end Subsetter
