import Verif.Proofs.RunStarts
import Verif.Proofs.PlanClosed
import Verif.Proofs.SamePlan
import Verif.Props.Counts
import Verif.Props.RunIntact
import Verif.Props.Planner

/-
Property C59: plan and sample succeed.
-/
namespace Subsetter.Props
open Subsetter Spec

variable {σ : Type} {C : RunConfig} {D : Setting σ} {p : Plan} {S : DbState} {s : σ}

/-- C59. A plain run of a plan, not necessarily one of the planner, finishes without an error if the two databases have
what it needs and the destination accepts the sample. -/
theorem c59_succeeds (hok : RunOK C D p) (hpl : Plain C) (hr : Runnable C D p)
    (ha : ∀ B Smp, Begins C D p S B → IsSample D.engine (dbTables D.srcDb) D.src p Smp →
      Accepts C D p (sample C D p S s).schema B Smp) : (sample C D p S s).err = none := by
  obtain ⟨r, db, x, order, states, offs, compact, mat, temps, hst⟩ := steps_exist (S := S) hok hpl hr
  obtain ⟨Smp, h1, -⟩ := hst.sample hok
  obtain ⟨B, -, -, h2⟩ := begins_run hok hst.start hst.create hst.truncate
  exact sample_succeeds hok hpl hr h2 h1 (ha B Smp h2 h1)

/-- The planner's plan for the tables of the source. -/
theorem planned_from {cfg : PlannerConfig} {fnmatch : Str → Str → Bool} {db : Dict Str TableMeta} (hdb : DbOK db)
    (hex : ∀ x ∈ cfg.extraFks, x.Valid) (htg : [] ∉ dkeys cfg.targets) (h : plan fnmatch db cfg = .ok p) :
    ∃ T, Input cfg T ∧ planInternal cfg T = .ok p ∧ ∀ k t, (k, t) ∈ T → (k.1 ++ '.' :: k.2, t) ∈ db := by
  unfold plan at h
  rcases fromEngine_spec (fnmatch := fnmatch) hdb (cfg.select ++ cfg.passthrough) cfg.includeDependencies false with
    ⟨l, h1, -, -, h4, -⟩ | ⟨h1, -⟩
  · rw [h1] at h
    refine ⟨l.tables, ⟨(loaded_ok hdb h1).1, hex, htg⟩, h, fun k t hk => ?_⟩
    obtain ⟨⟨n, hn⟩, rfl⟩ := h4 k t hk
    rw [← hdb.name_eq n t hn]
    exact hn
  · rw [h1] at h; cases h

/-- What the source must satisfy: columns of keys exist, primary keys are unique. -/
structure SourceOK (D : Setting σ) : Prop where
  pk : PkOK (dbTables D.srcDb) D.src
  pkColumns : ∀ n t, (n, t) ∈ D.srcDb → ∀ c ∈ t.primaryKey, c ∈ t.columns
  fkColumns : ∀ n t, (n, t) ∈ D.srcDb → ∀ fk ∈ t.foreignKeys, ∀ tb,
    (fk.dstSchema ++ '.' :: fk.dstTable, tb) ∈ D.srcDb → ∀ c ∈ fk.dstColumns, c ∈ tb.columns
  /-- integral columns hold integers; needed for primary keys on PostgreSQL -/
  ints : D.dialect = .postgresql → ∀ n t, (n, t) ∈ D.srcDb → ∀ c ∈ t.primaryKey, c ∈ t.intColumns →
    ∀ r ∈ D.src (t.schema, t.name), ∃ v : Int, r.get c = .int v

/-- The destination has none of the tables that are to be created, and its other tables do not refer to each other in
a circle; an empty database is an example. -/
structure DestinationFree (C : RunConfig) (D : Setting σ) (p : Plan) (S : DbState) : Prop where
  dest : ∀ n ∈ dkeys p.queries, ∃ k, DestOf C.remap n k
  differ : ∀ n ∈ dkeys p.queries, ∀ n' ∈ dkeys p.queries, ∀ k, DestOf C.remap n k → DestOf C.remap n' k → n = n'
  free : ∀ n ∈ dkeys p.queries, ∀ k, DestOf C.remap n k → ¬ InDb D.dstDb k ∧ S k = []
  circles : ∀ k, ¬ Relation.TransGen (DbRef D.dstDb) k k

/-- C59. A plan of the planner with dependencies included and no foreign keys ignored meets all that a run with `create`
needs, unless tables passed through refer to each other in a circle. -/
theorem c59_runnable (hok : RunOK C D p) {cfg : PlannerConfig} (hex : ∀ x ∈ cfg.extraFks, x.Valid)
    (htg : [] ∉ dkeys cfg.targets) (hplan : plan D.fnmatch D.srcDb cfg = .ok p)
    (hdep : cfg.includeDependencies = true) (hign : cfg.ignoreFks = [])
    (hcirc : ∀ k, Named cfg.passthrough k → ¬ Relation.TransGen (DbRef D.srcDb) k k)
    (hself : ∀ n ∈ dkeys p.queries, D.fnmatch n n = true) (hsrc : SourceOK D) (hfree : DestinationFree C D p S) :
    Runnable C D p := by
  obtain ⟨T, hI, hpi, hT⟩ := planned_from hok.src hex htg hplan
  obtain ⟨ign, pass, T₁, T₂, found, ord, hp⟩ := planning hI hpi
  have hname : ∀ n, n ∈ dkeys p.queries ↔ ∃ k ∈ found ++ ord, Key.str k = n := by
    intro n
    rw [show dkeys p.queries = _ from hp.shape.keys, List.mem_map]
  have hmem : ∀ {k : Key}, '.' ∉ k.1 → (k.1 ++ '.' :: k.2 ∈ dkeys p.queries ↔ k ∈ found ++ ord) := by
    intro k hk
    rw [hname]
    constructor
    · rintro ⟨k', h1, h2⟩
      rw [← str_inj (hp.nodot h1) hk h2]
      exact h1
    · exact fun h => ⟨k, h, rfl⟩
  have hget : ∀ k ∈ found ++ ord, ∃ t, (k, t) ∈ T ∧ (k.1 ++ '.' :: k.2, t) ∈ D.srcDb := by
    intro k hk
    obtain ⟨t, ht⟩ := Option.isSome_iff_exists.1 (hp.isSome_iff.1 (hp.shape.inT hp.ok hk))
    exact ⟨t, dget_some_mem ht, hT k t (dget_some_mem ht)⟩
  have hused : ∀ {n : Str} {t : TableMeta} {k : Key} {fk : ForeignKey}, (n, t) ∈ D.srcDb → (t.schema, t.name) = k →
      k ∈ found ++ ord → fk ∈ t.foreignKeys → UsedFk cfg T k fk (fk.dstSchema, fk.dstTable) := by
    intro n t k fk h1 h2 h3 h4
    obtain ⟨t', h5, h6⟩ := hget k h3
    have e : n = k.1 ++ '.' :: k.2 := by rw [hok.src.name_eq n t h1, ← h2]
    have e2 : t' = t := by
      have := dget_of_mem hok.src.names_nodup h1
      rw [e, dget_of_mem hok.src.names_nodup h6] at this
      exact Option.some.inj this
    subst e2
    refine .inl ⟨.inl ⟨t', h5, h4, rfl⟩, ?_⟩
    rintro ⟨y, hy, -⟩
    rw [hign] at hy; cases hy
  refine ⟨fun n hn => ?_, fun k q hq y hy => ?_, hp.shape.acyclic hp.ok, hfree.dest, hfree.differ, hfree.circles,
    fun _ n hn t ht _ fk hfk => ?_, fun _ k hk => ?_⟩
  · obtain ⟨k, h1, rfl⟩ := (hname n).1 hn
    obtain ⟨t, -, h2⟩ := hget k h1
    exact ⟨List.mem_map_of_mem (f := Prod.fst) h2, hself _ hn⟩
  · rcases hp.shape.refs_cases hp.ok hq hy with rfl | ⟨pre, post, d, he, hd, rfl⟩
    · exact ⟨q, hq⟩
    · exact (hp.planned_iff (k := d)).2 (by rw [he]; simp [hd])
  · obtain ⟨k, h1, rfl⟩ := (hname n).1 hn
    have hk : (t.schema, t.name) = k :=
      str_inj (k := (t.schema, t.name)) (hok.src.no_dot _ t ht) (hp.nodot h1) (hok.src.name_eq _ t ht).symm
    have hu := hused ht hk h1 hfk
    refine ⟨(hmem (hp.used_nodot hu).2).2 ?_, hsrc.fkColumns _ t ht fk hfk, fun d m td hd hm htd => ?_⟩
    · rcases hp.refs_planned h1 hu with h2 | ⟨h2, -⟩
      · exact h2
      · rw [hdep] at h2; cases h2
    · refine absurd ⟨m, td, hm, htd⟩ (hfree.free _ ?_ d hd).1
      refine (hmem (hp.used_nodot hu).2).2 ?_
      rcases hp.refs_planned h1 hu with h2 | ⟨h2, -⟩
      · exact h2
      · rw [hdep] at h2; cases h2
  · have hfd : k ∈ found := by
      refine hp.circle_found (Relation.TransGen.mono ?_ k k hk)
      rintro a b ⟨⟨m, t, fk, g1, g2, g3, g4⟩, g5, g6⟩
      have ha : '.' ∉ a.1 := by rw [← g2]; exact hok.src.no_dot m t g1
      have hb : '.' ∉ b.1 := by rw [← g4]; exact (hok.src.fk_cols m t g1 fk g3).2.2
      have ha' := (hmem ha).1 g5
      exact ⟨⟨fk, by rw [← g4]; exact hused g1 g2 ha' g3⟩, ha', (hmem hb).1 g6⟩
    exact hcirc k ((hp.pass_iff k).1 (hp.mem_found.1 hfd).1) (Relation.TransGen.mono (fun _ _ h => h.1) k k hk)

/-- `c59_create_and_fill` for a plan with the queries of the planner's plan, in whatever order. -/
theorem create_and_fill {p0 : Plan} (hsame : SamePlan p0 p) (hok : RunOK C D p) (hpl : Plain C) (hcr : C.create = true)
    (hdia : D.dialect ≠ .generic ∨ C.strategy = .error) {cfg : PlannerConfig} (hex : ∀ x ∈ cfg.extraFks, x.Valid)
    (htg : [] ∉ dkeys cfg.targets) (hplan : plan D.fnmatch D.srcDb cfg = .ok p0)
    (hdep : cfg.includeDependencies = true) (hign : cfg.ignoreFks = [])
    (hcirc : ∀ k, Named cfg.passthrough k → ¬ Relation.TransGen (DbRef D.srcDb) k k)
    (hself : ∀ n ∈ dkeys p.queries, D.fnmatch n n = true) (hsrc : SourceOK D) (hfree : DestinationFree C D p S) :
    (sample C D p S s).err = none ∧
    ∃ Smp, IsSample D.engine (dbTables D.srcDb) D.src p Smp ∧
      ∀ n ∈ dkeys p.queries, ∃ k kd t td, parseTableName n = some k ∧ (n, t) ∈ D.srcDb ∧ DestOf C.remap n kd ∧
        (kd.1 ++ '.' :: kd.2, td) ∈ (sample C D p S s).schema ∧ CopyOf C.remap (dkeys p.queries) t td ∧
        (sample C D p S s).final kd = (Smp k).map fun r => t.columns.map fun c => (c, r.get c) := by
  have hr : Runnable C D p := hsame.runnable (c59_runnable (S := S) (hsame.symm.runOK hok) hex htg hplan hdep hign hcirc
    (fun n hn => hself n (hsame.names.1 hn)) hsrc ⟨fun n hn => hfree.dest n (hsame.names.1 hn),
      fun n hn n' hn' => hfree.differ n (hsame.names.1 hn) n' (hsame.names.1 hn'),
      fun n hn => hfree.free n (hsame.names.1 hn), hfree.circles⟩)
  obtain ⟨T, hI, hpi, hT⟩ := planned_from hok.src hex htg hplan
  obtain ⟨r, db, x, order, states, offs, compact, mat, temps, hst⟩ := steps_exist (S := S) hok hpl hr
  have hsch : (sample C D p S s).schema = db := by
    simp only [sample, hst.start, hst.create, hst.order, hst.truncate, hst.prepare, hst.compacted, hst.ordered,
      hst.materialized]
  have hnew : ∀ n k kd t td, Copied C D p db n k kd t td → kd.1 ++ '.' :: kd.2 ∉ dkeys D.dstDb := by
    intro n k kd t td hc hm
    refine (hfree.free n hc.planned kd hc.dest).1 ?_
    obtain ⟨⟨m, t'⟩, h1, h2⟩ := List.mem_map.1 hm
    dsimp only at h2
    subst h2
    exact ⟨_, t', h1, str_inj (k := (t'.schema, t'.name)) (hok.dst.no_dot _ t' h1) (destOf_nodot hc.dest)
      (hok.dst.name_eq _ t' h1).symm⟩
  have hcopy := fun n k kd t td (hc : Copied C D p db n k kd t td) =>
    created_copyOf hok hst.start hst.create hc (hnew n k kd t td hc)
  have htar : ∀ n k kd t td, Copied C D p db n k kd t td → target D kd td = ⟨t.columns, [], fun _ => .null, td.primaryKey⟩ := by
    intro n k kd t td hc
    unfold target
    rw [if_neg (hnew n k kd t td hc), (hcopy n k kd t td hc).1.columns]
  have hland : ∀ n k kd t td, Copied C D p db n k kd t td → ∀ row,
      landed (target D kd td) t.columns row = t.columns.map fun c => (c, row.get c) := by
    intro n k kd t td hc row
    rw [htar n k kd t td hc]
    unfold landed
    dsimp only
    rw [List.filter_eq_self.2 (by simp)]
    exact List.map_congr_left fun c hm => by rw [if_pos hm]
  have hkey : ∀ n k kd t td, Copied C D p db n k kd t td → (t.schema, t.name) = k := by
    intro n k kd t td hc
    refine str_inj (k := (t.schema, t.name)) (hok.src.no_dot _ t hc.source) (parse_fst_nodot hc.name) ?_
    rw [parse_str hc.name]
    exact (hok.src.name_eq _ t hc.source).symm
  have hpkk : ∀ n k kd t td, Copied C D p db n k kd t td → ∀ Smp, IsSample D.engine (dbTables D.srcDb) D.src p Smp →
      td.primaryKey = [] ∨ KeysUnique td.primaryKey ((Smp k).map (landed (target D kd td) t.columns)) := by
    intro n k kd t td hc Smp hS
    by_cases hne : td.primaryKey = []
    · exact .inl hne
    right
    have hcp := (hcopy n k kd t td hc).1
    obtain ⟨q, hq⟩ := Option.isSome_iff_exists.1 (dget_isSome_iff.2 hc.planned)
    have htn : t.primaryKey ≠ [] := by
      obtain ⟨c, hc'⟩ := List.exists_mem_of_ne_nil _ hne
      exact List.ne_nil_of_mem ((hcp.pk c).1 hc').2
    have hk := hkey n k kd t td hc
    have hnd := (c56_constraints_hold hI hpi hsrc.pk (hsame.isSample.2 hS) ⟨q, hsame.planned.2 ⟨n, dget_some_mem hq, hc.name⟩⟩
      (dbTables_get hok.src (t := t) (k := k) (by rw [← parse_str hc.name] at *; exact hc.source) hk)).1 htn
    unfold KeysUnique
    rw [List.map_map]
    refine List.pairwise_map.2 ((List.pairwise_map.1 hnd).imp ?_)
    intro a b hab e
    refine hab (List.map_inj_left.2 fun c hcc => ?_)
    have hct := hsrc.pkColumns n t hc.source c hcc
    have := List.map_inj_left.1 e c ((hcp.pk c).2 ⟨hct, hcc⟩)
    simp only [hland n k kd t td hc] at this
    have hg : ∀ row : Row, Row.get (t.columns.map fun c => (c, row.get c)) c = row.get c := by
      intro row
      unfold Row.get
      rw [dget_mapped (f := fun c => (dget row c).getD .null) hct]
      rfl
    rw [hg, hg] at this
    exact this
  have hacc : ∀ B Smp, Begins C D p S B → IsSample D.engine (dbTables D.srcDb) D.src p Smp → Accepts C D p db B Smp := by
    intro B Smp hB hS
    have hBe : ∀ n k kd t td, Copied C D p db n k kd t td → B kd = [] := by
      intro n k kd t td hc
      by_cases ht : C.truncate = true
      · exact hB.emptied ht kd hc.reached
      · rw [hB.kept kd fun h => absurd h ht]
        exact (hfree.free n hc.planned kd hc.dest).2
    refine ⟨hdia, fun n k kd t td hc c hm => ?_, fun n k kd t td hc c hm => ?_, fun n k kd t td hc => .inr ?_,
      fun n k kd t td hc _ => ?_, fun hpg n k kd t td hc c hau hm row hrow => ?_⟩
    · rw [(hcopy n k kd t td hc).1.columns]; exact hm
    · refine ⟨(((hcopy n k kd t td hc).1.pk c).1 hm).1, ?_⟩
      rw [htar n k kd t td hc]
      exact List.not_mem_nil
    · rw [htar n k kd t td hc]
    · rw [hBe n k kd t td hc, List.nil_append]
      exact hpkk n k kd t td hc Smp hS
    · have hcp := (hcopy n k kd t td hc).1
      obtain ⟨h1, h2, -⟩ := (hcp.auto c).1 hau
      have h3 : c ∈ t.primaryKey := ((hcp.pk c).1 (by rw [h1]; simp)).2
      rw [hcp.ints] at h2
      obtain ⟨q, hq⟩ := Option.isSome_iff_exists.1 (dget_isSome_iff.2 hc.planned)
      refine hsrc.ints hpg n t hc.source c h3 h2 row ?_
      rw [hkey n k kd t td hc]
      exact (c56_subperm hI hpi hsrc.pk (hsame.isSample.2 hS) ⟨q, hsame.planned.2 ⟨n, dget_some_mem hq, hc.name⟩⟩).subset hrow
  have herr : (sample C D p S s).err = none := c59_succeeds hok hpl hr (by rw [hsch]; exact hacc)
  refine ⟨herr, ?_⟩
  obtain ⟨Smp, h1, h2, -⟩ := c58_exactly_the_sample hok hpl herr
  refine ⟨Smp, h1, fun n hn => ?_⟩
  obtain ⟨k, kd, t, td, hc⟩ := c58_all_copied hok hcr herr n hn
  have hc' := hc
  rw [hsch] at hc'
  refine ⟨k, kd, t, td, hc.name, hc.source, hc.dest, hc.schema, (hcopy n k kd t td hc').1, ?_⟩
  rw [h2 n k kd t td hc (.inr (hfree.free n hn kd hc.dest).2) (.inr (hpkk n k kd t td hc' Smp h1))]
  exact List.map_congr_left fun row _ => hland n k kd t td hc' row

/-- C59. If the planner makes a plan with dependencies included and no foreign keys ignored, and tables passed through do
not refer to each other in a circle, then a plain run with `create` into a database without the tables finishes without
an error, creates a copy of every planned table and fills it with its sample. -/
theorem c59_create_and_fill (hok : RunOK C D p) (hpl : Plain C) (hcr : C.create = true)
    (hdia : D.dialect ≠ .generic ∨ C.strategy = .error) {cfg : PlannerConfig} (hex : ∀ x ∈ cfg.extraFks, x.Valid)
    (htg : [] ∉ dkeys cfg.targets) (hplan : plan D.fnmatch D.srcDb cfg = .ok p)
    (hdep : cfg.includeDependencies = true) (hign : cfg.ignoreFks = [])
    (hcirc : ∀ k, Named cfg.passthrough k → ¬ Relation.TransGen (DbRef D.srcDb) k k)
    (hself : ∀ n ∈ dkeys p.queries, D.fnmatch n n = true) (hsrc : SourceOK D) (hfree : DestinationFree C D p S) :
    (sample C D p S s).err = none ∧
    ∃ Smp, IsSample D.engine (dbTables D.srcDb) D.src p Smp ∧
      ∀ n ∈ dkeys p.queries, ∃ k kd t td, parseTableName n = some k ∧ (n, t) ∈ D.srcDb ∧ DestOf C.remap n kd ∧
        (kd.1 ++ '.' :: kd.2, td) ∈ (sample C D p S s).schema ∧ CopyOf C.remap (dkeys p.queries) t td ∧
        (sample C D p S s).final kd = (Smp k).map fun r => t.columns.map fun c => (c, r.get c) :=
  create_and_fill ⟨.refl _, rfl⟩ hok hpl hcr hdia hex htg hplan hdep hign hcirc hself hsrc hfree

/-- Sample the orders of user 1 and pass users through. -/
def axCfg : PlannerConfig := { exCfg with select := [str! "s.o"], passthrough := [str! "s.u"] }

/-- The source of the example and an empty destination. -/
def axSetting (f : Str → Str → Bool) : Setting Int := { rxSetting [] with fnmatch := f }

theorem axNames : planNames (plan dxEq (axSetting dxEq).srcDb axCfg) = [str! "s.u", str! "s.o"] := by decide +kernel

theorem ax_noref {f : Str → Str → Bool} {a b : Key} : ¬ DbRef (axSetting f).dstDb a b := by
  rintro ⟨n, t, fk, h, -⟩
  cases h

theorem ax_ok {f : Str → Str → Bool} {C : RunConfig} (hC : C.compact.columns = [])
    (hn : dkeys p.queries = [str! "s.u", str! "s.o"]) : RunOK C (axSetting f) p := by
  have := rx_ok hC
  exact ⟨this.src, ⟨.nil, (fun _ _ h => nomatch h), (fun _ _ h => nomatch h), (fun _ _ h => nomatch h), (fun _ _ h => nomatch h)⟩,
    fun a b h => (ax_noref h).elim, this.srcColumns, fun _ _ h => (nomatch h), by rw [hn]; decide, this.compactNames⟩

/-- Users, which are passed through, refer to nothing. -/
theorem ax_nocircle {f : Str → Str → Bool} {k : Key} (hk : Named axCfg.passthrough k) :
    ¬ Relation.TransGen (DbRef (axSetting f).srcDb) k k := by
  intro hc
  have hk : k = (str! "s", str! "u") := by
    obtain ⟨n, h1, h2⟩ := hk
    simp only [axCfg, List.mem_cons, List.not_mem_nil, or_false] at h1
    subst h1
    exact (Option.some.inj h2).symm
  subst hk
  obtain ⟨b, h1, -⟩ := Relation.TransGen.head'_iff.1 hc
  obtain ⟨n, t, fk, h2, h3, h4, -⟩ := h1
  have : ∀ e ∈ (rxSetting []).srcDb, (e.2.schema, e.2.name) = (str! "s", str! "u") → e.2.foreignKeys = [] := by decide
  rw [this (n, t) h2 h3] at h4
  cases h4

theorem ax_source {f : Str → Str → Bool} : SourceOK (axSetting f) := by
  have hpk : PkOK (dbTables (rxSetting []).srcDb) (rxSetting []).src := by
    intro k t hk hne
    have hm := dget_some_mem hk
    simp only [dbTables, rxSetting, List.map_cons, List.map_nil, List.mem_cons, List.not_mem_nil, or_false] at hm
    rcases hm with hm | hm <;> cases hm <;> decide +kernel
  refine ⟨hpk, ?_, ?_, fun h => by cases h⟩
  · have : ∀ e ∈ (rxSetting []).srcDb, ∀ c ∈ e.2.primaryKey, c ∈ e.2.columns := by decide
    exact fun n t h => this (n, t) h
  · have : ∀ e ∈ (rxSetting []).srcDb, ∀ fk ∈ e.2.foreignKeys, ∀ e' ∈ (rxSetting []).srcDb,
      e'.1 = fk.dstSchema ++ '.' :: fk.dstTable → ∀ c ∈ fk.dstColumns, c ∈ e'.2.columns := by decide
    exact fun n t h fk hfk tb htb => this (n, t) h fk hfk (_, tb) htb rfl

theorem ax_free {f : Str → Str → Bool} {C : RunConfig} (hC : C.remap = dxRemap)
    (hn : dkeys p.queries = [str! "s.u", str! "s.o"]) : DestinationFree C (axSetting f) p (fun _ => []) := by
  have hd : ∀ n ∈ dkeys p.queries, DestOf C.remap n (if n = str! "s.u" then (str! "m", str! "u") else (str! "m", str! "o")) := by
    intro n h1
    rw [hn] at h1
    rw [hC]
    simp only [List.mem_cons, List.not_mem_nil, or_false] at h1
    rcases h1 with rfl | rfl
    · exact ⟨str! "s", str! "u", by decide, by decide⟩
    · exact ⟨str! "s", str! "o", by decide, by decide⟩
  refine ⟨fun n h1 => ⟨_, hd n h1⟩, fun n h1 n' h2 k h3 h4 => ?_, fun n _ k _ => ⟨?_, rfl⟩, fun k hk => ?_⟩
  · have e := (destOf_unique h3 (hd n h1)).symm.trans (destOf_unique h4 (hd n' h2))
    rw [hn] at h1 h2
    simp only [List.mem_cons, List.not_mem_nil, or_false] at h1 h2
    rcases h1 with rfl | rfl <;> rcases h2 with rfl | rfl <;> first | rfl | exact absurd e (by decide)
  · rintro ⟨n, t, h, -⟩; cases h
  · obtain ⟨b, h1, -⟩ := Relation.TransGen.head'_iff.1 hk
    exact ax_noref h1

/-- C59 on an example: both tables are created in an empty database. -/
theorem ax_create : ∃ p, plan dxEq (axSetting dxEq).srcDb axCfg = .ok p ∧
    (sample { remap := dxRemap, create := true } (axSetting dxEq) p (fun _ => []) 0).err = none := by
  have hn := axNames
  cases h : plan dxEq (axSetting dxEq).srcDb axCfg with
  | error e => rw [h] at hn; cases hn
  | ok p =>
    rw [h] at hn
    have hn : dkeys p.queries = [str! "s.u", str! "s.o"] := hn
    exact ⟨p, rfl, (c59_create_and_fill (C := { remap := dxRemap, create := true }) (D := axSetting dxEq) (p := p)
      (S := fun _ => []) (s := 0) (ax_ok rfl hn)
      ⟨fun _ _ h => (nomatch h), ⟨rfl, rfl⟩, fun _ _ h => (nomatch h), by decide, rfl⟩ rfl (.inl (by decide)) (cfg := axCfg)
      (fun _ h => nomatch h) (by decide) h (by decide) rfl (fun _ hk => ax_nocircle hk)
      (fun n _ => by simp [axSetting, dxEq]) ax_source (ax_free rfl hn)).1⟩

end Subsetter.Props
