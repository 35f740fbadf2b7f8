import Verif.Props.RunSucceeds

/-
Property C60 for tables created by the run.
-/
namespace Subsetter.Props
open Subsetter Spec

variable {σ : Type} {C : RunConfig} {D : Setting σ} {p : Plan} {S : DbState} {s : σ}

/-- Tables of the destination after a run were there before or are copies of planned tables. -/
theorem schema_tables (hok : RunOK C D p) {m : Str} {td : TableMeta} (h : (m, td) ∈ (sample C D p S s).schema) :
    (m, td) ∈ D.dstDb ∨ ∃ n ∈ dkeys p.queries, ∃ t, (n, t) ∈ D.srcDb ∧ DestOf C.remap n (td.schema, td.name) ∧
      m = td.schema ++ '.' :: td.name ∧ CopyOf C.remap (dkeys p.queries) t td := by
  have main : ∀ {r : Started} {db : Dict Str TableMeta} {x : DestMeta}, startRun C D p = .ok r →
      createStep C D r = .ok (db, x) → (m, td) ∈ db → (m, td) ∈ D.dstDb ∨ ∃ n ∈ dkeys p.queries, ∃ t, (n, t) ∈ D.srcDb ∧
        DestOf C.remap n (td.schema, td.name) ∧ m = td.schema ++ '.' :: td.name ∧ CopyOf C.remap (dkeys p.queries) t td := by
    intro r db x h1 h2 hm
    obtain ⟨-, -, -, -, -, -, hd⟩ := startRun_ok h1
    obtain ⟨hmap, hl⟩ := destInit_ok hd
    have hT := destInit_tables hok.dst hd
    have hfa := startRun_facts hok.src h1
    unfold createStep at h2
    split at h2
    · cases hct : createdTables r.raw r.dest with
      | error e => rw [hct] at h2; cases h2
      | ok ts =>
        rw [hct] at h2
        cases h2
        have hF := created_facts hT hmap hct
        rcases List.mem_append.1 hm with g | g
        · exact .inl g
        · obtain ⟨t', g1, g2⟩ := List.mem_map.1 g
          obtain ⟨g3, rfl⟩ := Prod.mk.inj g2
          obtain ⟨n', i1, k0, t0, i2, -, i3, i4, -, i5⟩ := hF.each t' ((D.setOrder_perm ts).mem_iff.1 g1)
          obtain ⟨g4, -⟩ := hfa.sub k0 t0 i4
          rw [show k0.1 ++ '.' :: k0.2 = n' from parse_str i3] at g4
          exact .inr ⟨n', i1, t0, g4, i2, g3.symm, i5⟩
    · cases h2
      exact .inl hm
  rcases sample_cases C D p S s with ⟨-, -, -, g⟩ | ⟨r, db, x, order, states, h1, h2, -, -, h5, -⟩ |
    ⟨r, db, x, order, states, offs, compact, mat, temps, hst, h1, -⟩
  · rcases g with g | ⟨r, x, g1, g2⟩
    · rw [g] at h; exact .inl h
    · exact main g1 g2 h
  · rw [h5] at h; exact main h1 h2 h
  · rw [h1] at h; exact main hst.start hst.create h

/-- No filter changes or omits a column of a foreign key or a column that one refers to. -/
def KeysUnfiltered (C : RunConfig) (D : Setting σ) : Prop :=
  ∀ n fs, (n, fs) ∈ C.filters → ∀ f ∈ fs, ∀ c ∈ FilterCfg.writes f,
    (∀ t, (n, t) ∈ D.srcDb → ∀ fk ∈ t.foreignKeys, c ∉ fk.columns) ∧
    ∀ n' t', (n', t') ∈ D.srcDb → ∀ fk ∈ t'.foreignKeys, fk.dstSchema ++ '.' :: fk.dstTable = n → c ∉ fk.dstColumns

/-- Columns of foreign keys exist. -/
def FkColumnsOK (D : Setting σ) : Prop :=
  ∀ n t, (n, t) ∈ D.srcDb → ∀ fk ∈ t.foreignKeys, (∀ c ∈ fk.columns, c ∈ t.columns) ∧
    ∀ tb, (fk.dstSchema ++ '.' :: fk.dstTable, tb) ∈ D.srcDb → ∀ c ∈ fk.dstColumns, c ∈ tb.columns

/-- With strategies other than `error`, foreign keys lead to columns of primary keys. -/
def RefsToKeys (C : RunConfig) (D : Setting σ) : Prop :=
  C.strategy = .error ∨ ∀ n t, (n, t) ∈ D.srcDb → ∀ fk ∈ t.foreignKeys, ∀ tb,
    (fk.dstSchema ++ '.' :: fk.dstTable, tb) ∈ D.srcDb → ∀ c ∈ fk.dstColumns, c ∈ tb.primaryKey

/-- Tables copied to a destination that had none of them are copies of those of the source. -/
theorem created_copy (hok : RunOK C D p) (hfree : DestinationFree C D p S) {n : Str} {k kd : Key} {t td : TableMeta}
    (hc : Copied C D p (sample C D p S s).schema n k kd t td) :
    CopyOf C.remap (dkeys p.queries) t td ∧ (target D kd td).computed = [] ∧ (t.schema, t.name) = k := by
  have hnone : ∀ n ∈ dkeys p.queries, ∀ kd, DestOf C.remap n kd → kd.1 ++ '.' :: kd.2 ∉ dkeys D.dstDb := by
    intro n hn kd hd hm
    refine (hfree.free n hn kd hd).1 ?_
    obtain ⟨⟨m, t'⟩, h1, h2⟩ := List.mem_map.1 hm
    dsimp only at h2
    subst h2
    exact ⟨_, t', h1, str_inj (k := (t'.schema, t'.name)) (hok.dst.no_dot _ t' h1) (destOf_nodot hd)
      (hok.dst.name_eq _ t' h1).symm⟩
  have same : ∀ {n t t'}, (n, t) ∈ D.srcDb → (n, t') ∈ D.srcDb → t = t' := by
    intro n t t' h1 h2
    have := dget_of_mem hok.src.names_nodup h1
    rw [dget_of_mem hok.src.names_nodup h2] at this
    exact (Option.some.inj this).symm
  have hn := hnone n hc.planned kd hc.dest
  refine ⟨?_, by unfold target; rw [if_neg hn], ?_⟩
  · rcases schema_tables hok hc.schema with g | ⟨n', g1, t', g2, g3, g4, g5⟩
    · exact absurd (List.mem_map_of_mem (f := Prod.fst) g) hn
    · have e : kd = (td.schema, td.name) := str_inj (destOf_nodot hc.dest) (destOf_nodot g3) g4
      subst e
      have e := hfree.differ n hc.planned n' g1 _ hc.dest g3
      subst e
      rw [same hc.source g2]
      exact g5
  · refine str_inj (k := (t.schema, t.name)) (hok.src.no_dot _ t hc.source) (parse_fst_nodot hc.name) ?_
    rw [parse_str hc.name]
    exact (hok.src.name_eq _ t hc.source).symm

/-- What holds of created tables. -/
theorem created_conditions (hok : RunOK C D p) (hmg : C.merge = false) {cfg : PlannerConfig} (hex : ∀ x ∈ cfg.extraFks, x.Valid)
    (htg : [] ∉ dkeys cfg.targets) (hplan : plan D.fnmatch D.srcDb cfg = .ok p) (hign : cfg.ignoreFks = [])
    (hcols : FkColumnsOK D) (hfil : KeysUnfiltered C D) (hrefs : RefsToKeys C D) (hfree : DestinationFree C D p S) :
    ∃ T, Input cfg T ∧ planInternal cfg T = .ok p ∧ Mirrored C D cfg T p (sample C D p S s).schema ∧
      RefsStable C D p (sample C D p S s).schema ∧
      ∀ n k kd t td, Copied C D p (sample C D p S s).schema n k kd t td → TableHolds (target D kd td) (S kd) := by
  obtain ⟨T, hI, hpi, hT⟩ := planned_from hok.src hex htg hplan
  obtain ⟨ign, pass, T₁, T₂, found, ord, hp⟩ := planning hI hpi
  have same : ∀ {n t t'}, (n, t) ∈ D.srcDb → (n, t') ∈ D.srcDb → t = t' := by
    intro n t t' h1 h2
    have := dget_of_mem hok.src.names_nodup h1
    rw [dget_of_mem hok.src.names_nodup h2] at this
    exact (Option.some.inj this).symm
  have hcopy := fun n k kd t td hc => created_copy (S := S) (s := s) hok hfree (n := n) (k := k) (kd := kd) (t := t) (td := td) hc
  have hempty : ∀ n k kd t td, Copied C D p (sample C D p S s).schema n k kd t td → S kd = [] :=
    fun n k kd t td hc => (hfree.free n hc.planned kd hc.dest).2
  refine ⟨T, hI, hpi, ?_, ?_, fun n k kd t td hc => ?_⟩
  · intro n k kd t td hc fk hfk
    obtain ⟨hcp, hcomp, hk⟩ := hcopy n k kd t td hc
    obtain ⟨fk0, hfk0, e1, e2, nb, hnb, enb, hdb⟩ := forall₂_mem_right hcp.fks hfk
    have hfkc := hcols n t hc.source fk0 hfk0
    refine ⟨fun c hcc => ⟨?_, fun fs hfs f hf hw => ?_, by rw [hcomp]; exact List.not_mem_nil⟩, fk0,
      (fk0.dstSchema, fk0.dstTable), nb, ⟨n, t, hc.source, hk, hfk0, rfl⟩, ?_, e1.symm, e2.symm, hnb, ?_, hdb, ?_⟩
    · rw [e1] at hcc; exact hfkc.1 c hcc
    · rw [e1] at hcc
      exact (hfil n fs hfs f hf c hw).1 t hc.source fk0 hfk0 hcc
    · refine .inl ⟨.inl ⟨t, ?_, hfk0, rfl⟩, ?_⟩
      · have hn := hc.planned
        rw [show dkeys p.queries = _ from hp.shape.keys, List.mem_map] at hn
        obtain ⟨k', h1, h2⟩ := hn
        have e : k' = k := str_inj (hp.nodot h1) (parse_fst_nodot hc.name) (h2.trans (parse_str hc.name).symm)
        subst e
        obtain ⟨t', ht⟩ := Option.isSome_iff_exists.1 (hp.isSome_iff.1 (hp.shape.inT hp.ok h1))
        have := hT k' t' (dget_some_mem ht)
        rw [show k'.1 ++ '.' :: k'.2 = n from h2] at this
        rw [same hc.source this]
        exact dget_some_mem ht
      · rintro ⟨y, hy, -⟩
        rw [hign] at hy; cases hy
    · rw [enb]
      exact parse_of_nodot (k := (fk0.dstSchema, fk0.dstTable)) (hok.src.fk_cols n t hc.source fk0 hfk0).2.2
    · intro kb' tb tdb hb c hcc
      rw [e2] at hcc
      refine ⟨?_, fun fs hfs f hf hw => ?_, ?_⟩
      · exact hfkc.2 tb (by rw [← enb]; exact hb.source) c hcc
      · exact (hfil nb fs hfs f hf c hw).2 n t hc.source fk0 hfk0 enb.symm hcc
      · rw [(hcopy nb kb' _ tb tdb hb).2.1]; exact List.not_mem_nil
  · intro a fk b ⟨m, t, h1, h2, h3, h4⟩ n' k' t' td' hc
    rcases hrefs with hrefs | hrefs
    · exact .inl (by unfold strategyFor; rw [if_neg (by rw [hmg]; simp)]; exact hrefs)
    right; right
    subst h4
    rcases schema_tables hok h1 with g | ⟨n, g1, t0, g2, g3, g4, g5⟩
    · exfalso
      refine (hfree.free n' hc.planned _ hc.dest).1 ?_
      exact (hok.closed _ _ ⟨m, t, fk, g, h2, h3, rfl⟩)
    · obtain ⟨fk0, hfk0, e1, e2, nb, hnb, enb, hdb⟩ := forall₂_mem_right g5.fks h3
      have e := hfree.differ n' hc.planned nb hnb _ hc.dest hdb
      subst e
      intro c hcc
      rw [e2] at hcc
      have hs := hc.source
      rw [enb] at hs
      exact ((hcopy _ _ _ _ _ hc).1.pk c).2 ⟨(hcols n t0 g2 fk0 hfk0).2 t' hs c hcc, hrefs n t0 g2 fk0 hfk0 t' hs c hcc⟩
  · rw [hempty n k kd t td hc]
    exact ⟨fun _ => List.nodup_nil, by simp⟩

/-- C60. Where the planned tables do not exist in the destination, conditions on the source suffice: if the foreign keys
of the source hold, none is ignored and no filter is applied to key columns, then foreign keys hold in the destination
after every commit of a run, whether it finishes, fails or is interrupted.
Missing as in `c60_always_intact_partial`: compaction, multiplicity, merging, targets with `all` and `amount`. -/
theorem c60_created_partial (hok : RunOK C D p) (hid : SameIds C) {cfg : PlannerConfig} (hex : ∀ x ∈ cfg.extraFks, x.Valid)
    (htg : [] ∉ dkeys cfg.targets) (hplan : plan D.fnmatch D.srcDb cfg = .ok p) (hign : cfg.ignoreFks = [])
    (hall : ∀ n y, dget cfg.targets n = some y → y.all = true → y.amount = none)
    (hcr : C.create = true) (hpk : PkOK (dbTables D.srcDb) D.src) (hsrc : Intact D.srcDb D.src) (hcols : FkColumnsOK D)
    (hfil : KeysUnfiltered C D) (hrefs : RefsToKeys C D) (hfree : DestinationFree C D p S)
    (h0 : Intact D.dstDb S) (hnew : ∀ k, ¬ InDb D.dstDb k → S k = []) :
    ∀ X ∈ (sample C D p S s).hist, Intact (sample C D p S s).schema X := by
  obtain ⟨T, h1, h2, h3, h4, h5⟩ := created_conditions (s := s) hok hid.merge hex htg hplan hign hcols hfil hrefs hfree
  exact c60_always_intact_partial hok hid (hok.self hcr) h1 h2 hall hpk hsrc h3 h4 h0 hnew h5

end Subsetter.Props
