import Verif.Proofs.Logical
import Verif.Props.RunRefs

/-
Property C80: references hold after a run also if the destination does not declare them.
Property C81: inferring foreign keys is the same as declaring them.
-/
namespace Subsetter.Props
open Subsetter Spec

variable {σ : Type} {C : RunConfig} {D : Setting σ} {p : Plan} {S : DbState} {s : σ}

/-! ### C81 -/

/-- C81. A run that infers foreign keys and creates no tables does the same as one that infers none, of a source that
declares the keys inferred. -/
theorem c81_run (hok : RunOK C D p) (hcr : C.create = false) {db' : Dict Str TableMeta}
    (h : Declares D.fnmatch C.infer (dkeys p.queries) D.srcDb db') :
    sample C D p S s = sample { C with infer := .none } { D with srcDb := db' } p S s :=
  sample_declared hok hcr h

/-- C81. There is always such a source. -/
theorem c81_exists (hok : RunOK C D p) : ∃ db', Declares D.fnmatch C.infer (dkeys p.queries) D.srcDb db' :=
  ⟨_, declares_exists hok.src⟩

/-- C81. The same holds of a run with a directory as output. -/
theorem c81_directory (hok : RunOK C D p) {db' : Dict Str TableMeta}
    (h : Declares D.fnmatch C.infer (dkeys p.queries) D.srcDb db') {F : Files} :
    sampleDirectory C D p F s = sampleDirectory { C with infer := .none } { D with srcDb := db' } p F s :=
  sampleDirectory_declared hok h

/-- C81. The same holds of planning without dependencies. -/
theorem c81_plan {fnmatch : Str → Str → Bool} {db db' : Dict Str TableMeta} (hdb : DbOK db)
    (hcols : ∀ n t, (n, t) ∈ db → t.columns.Nodup) {cfg : PlannerConfig} (hdep : cfg.includeDependencies = false)
    (h : Declares fnmatch cfg.infer (cfg.select ++ cfg.passthrough) db db') :
    plan fnmatch db cfg = plan fnmatch db' { cfg with infer := .none } := by
  unfold plan
  dsimp only
  rw [hdep, fromEngine_plain hdb, fromEngine_plain (declares_ok hdb h)]
  dsimp only
  rw [declares_tables hdb hcols h, planInternal_declared, hdep]

/-! ### C80 -/

/-- C80. After a run that succeeds and does not compact, multiply or merge, every foreign key the planner used holds
between two copied tables, be it declared, inferred or an extra one, and whether the destination declares it or not.
Missing: targets with `all` and `amount` (C07), and strategies other than `error` with references to columns outside of
primary keys (C36). -/
theorem c80_same_ids_partial (hok : RunOK C D p) (hid : SameIds C) {cfg : PlannerConfig} {T : Tables} (hI : Input cfg T)
    (hplan : planInternal cfg T = .ok p)
    (hall : ∀ n y, dget cfg.targets n = some y → y.all = true → y.amount = none)
    (hpk : PkOK (dbTables D.srcDb) D.src) (herr : (sample C D p S s).err = none)
    {n : Str} {k kd : Key} {t td : TableMeta} {nb : Str} {kb kdb : Key} {tb tdb : TableMeta} {fk : ForeignKey}
    (h : Carried C D cfg T p S (sample C D p S s).schema n k kd t td nb kb kdb tb tdb fk) :
    ∀ r ∈ (sample C D p S s).final kd, (∀ c ∈ fk.columns, r.get c ≠ .null) →
      ∃ m ∈ (sample C D p S s).final kdb, Refers fk.columns fk.dstColumns r m :=
  final_refers hok hI hplan hall hpk herr h fun hcp _ _ =>
    ⟨sameIds_pair hid hcp _ _ _ _ _ _ _, sameIds_lookups hid hcp _, sameIds_lookups hid hcp _⟩

/-- C80. The same holds with compaction, multiplication and merging of a foreign key that the source declares, if the
configuration treats columns as those they refer to. -/
theorem c80_follow_partial (hok : RunOK C D p) (hfo : IdsFollow C D p []) {cfg : PlannerConfig} {T : Tables}
    (hI : Input cfg T) (hplan : planInternal cfg T = .ok p)
    (hall : ∀ n y, dget cfg.targets n = some y → y.all = true → y.amount = none)
    (hpk : PkOK (dbTables D.srcDb) D.src) (herr : (sample C D p S s).err = none)
    {n : Str} {k kd : Key} {t td : TableMeta} {nb : Str} {kb kdb : Key} {tb tdb : TableMeta} {fk : ForeignKey}
    (h : Carried C D cfg T p S (sample C D p S s).schema n k kd t td nb kb kdb tb tdb fk)
    (hfk : fk ∈ t.foreignKeys) (hkb : (fk.dstSchema, fk.dstTable) = kb)
    (hal : C.merge = true → MergedAlike p n nb td tb tdb fk) :
    ∀ r ∈ (sample C D p S s).final kd, (∀ c ∈ fk.columns, r.get c ≠ .null) →
      ∃ m ∈ (sample C D p S s).final kdb, Refers fk.columns fk.dstColumns r m :=
  final_refers hok hI hplan hall hpk herr h fun hcp hnames hB =>
    ⟨follow_pair hok hfo hcp h.child hnames h.parent hfk hkb hal hB,
      fun _ _ _ g => lookups_unique hok hfo.lookups hcp hI hplan hpk h.child g,
      fun _ _ _ g => lookups_unique hok hfo.lookups hcp hI hplan hpk h.parent g⟩

/-- C80. The same holds of a foreign key inferred by the run, if the configuration treats columns as those they refer to
by declared and inferred keys.
Missing: runs that create tables, and keys that only the planner knows, where the claim fails
(`c80_planner_inference_broken`, `c80_extra_key_broken`). -/
theorem c80_inferred_partial (hok : RunOK C D p) (hcr : C.create = false) {db' : Dict Str TableMeta}
    (hdb : Declares D.fnmatch C.infer (dkeys p.queries) D.srcDb db')
    (hfo : IdsFollow { C with infer := .none } { D with srcDb := db' } p []) {cfg : PlannerConfig} {T : Tables}
    (hI : Input cfg T) (hplan : planInternal cfg T = .ok p)
    (hall : ∀ n y, dget cfg.targets n = some y → y.all = true → y.amount = none)
    (hpk : PkOK (dbTables D.srcDb) D.src) (herr : (sample C D p S s).err = none)
    {n : Str} {k kd : Key} {t td : TableMeta} {nb : Str} {kb kdb : Key} {tb tdb : TableMeta} {fk : ForeignKey}
    (h : Carried C D cfg T p S (sample C D p S s).schema n k kd t td nb kb kdb tb tdb fk)
    {t' : TableMeta} (ht : (n, t') ∈ db') (hfk : fk ∈ t'.foreignKeys) (hkb : (fk.dstSchema, fk.dstTable) = kb)
    (hal : C.merge = true → MergedAlike p n nb td tb tdb fk) :
    ∀ r ∈ (sample C D p S s).final kd, (∀ c ∈ fk.columns, r.get c ≠ .null) →
      ∃ m ∈ (sample C D p S s).final kdb, Refers fk.columns fk.dstColumns r m := by
  have he := c81_run (S := S) (s := s) hok hcr hdb
  rw [he] at h herr ⊢
  obtain ⟨t0, g1, g2⟩ := declares_get hdb hok h.child.source
  have e := dget_of_mem (declares_ok hok.src hdb).names_nodup ht
  rw [dget_of_mem (declares_ok hok.src hdb).names_nodup g1] at e
  cases e
  obtain ⟨tb', g3, g4⟩ := declares_get hdb hok h.parent.source
  refine c80_follow_partial (declared_ok hdb hok) hfo hI hplan hall (declared_pk (D := D) hdb hok hpk) herr
    (declared_carried h g1 g3 (by rw [g2]) (by rw [g4])) hfk hkb fun hmg => ?_
  have := hal hmg
  unfold MergedAlike at this ⊢
  rw [g4]
  exact this

/-- C74 with inferred foreign keys: conditions are those on the source that declares them. -/
theorem c74_inferred_partial (hok : RunOK C D p) (hcr : C.create = false) {db' : Dict Str TableMeta}
    (hdb : Declares D.fnmatch C.infer (dkeys p.queries) D.srcDb db')
    (hself : ∀ n ∈ dkeys D.dstDb, D.fnmatch n n = true)
    {cfg : PlannerConfig} {T : Tables} (hI : Input cfg T) (hplan : planInternal cfg T = .ok p)
    (hall : ∀ n y, dget cfg.targets n = some y → y.all = true → y.amount = none)
    (hpk : PkOK (dbTables D.srcDb) D.src) (hsrc : Intact db' D.src)
    (hmir : Mirrored { C with infer := .none } { D with srcDb := db' } cfg T p D.dstDb)
    (hstab : RefsStable C D p D.dstDb)
    (hfo : IdsFollow { C with infer := .none } { D with srcDb := db' } p D.dstDb)
    (h0 : Intact D.dstDb S) (hnew : ∀ k, ¬ InDb D.dstDb k → S k = [])
    (hold : ∀ n k kd t td, Copied C D p D.dstDb n k kd t td → TableHolds (target D kd td) (S kd)) :
    ∀ X ∈ (sample C D p S s).hist, Intact D.dstDb X := by
  have hc : ∀ {n k kd t' td}, Copied { C with infer := .none } { D with srcDb := db' } p D.dstDb n k kd t' td →
      ∃ t, Copied C D p D.dstDb n k kd t td := by
    intro n k kd t' td h
    obtain ⟨t, h1, -⟩ := declares_entry hdb h.source
    exact ⟨t, h.planned, h.name, h1, h.dest, h.reached, h.schema⟩
  rw [c81_run (S := S) (s := s) hok hcr hdb]
  have hsch : (sample { C with infer := .none } { D with srcDb := db' } p S s).schema = D.dstDb := schema_kept hcr
  have := c74_always_intact_partial (C := { C with infer := .none }) (D := { D with srcDb := db' }) (S := S) (s := s)
    (declared_ok hdb hok) hself hI hplan hall (declared_pk (D := D) hdb hok hpk) hsrc (by rw [hsch]; exact hmir)
    (by
      rw [hsch]
      intro a fk b h n k t' td h1
      obtain ⟨t, h2⟩ := hc h1
      exact hstab a fk b h n k t td h2)
    (by rw [hsch]; exact hfo) h0 hnew (by
      rw [hsch]
      intro n k kd t' td h1
      obtain ⟨t, h2⟩ := hc h1
      exact hold n k kd t td h2)
  rwa [hsch] at this

/-! ### Example -/

/-- Orders and users, without foreign keys. -/
def lgO (s : Str) : TableMeta := { schema := s, name := str! "o", columns := [str! "oid", str! "uid"], primaryKey := [str! "oid"], intColumns := [str! "oid", str! "uid"] }
def lgU (s : Str) : TableMeta := { schema := s, name := str! "u", columns := [str! "uid"], primaryKey := [str! "uid"], intColumns := [str! "uid"] }

/-- Order 7 is of user 5, order 8 of user 6. -/
def lgSrc : Key → List Row := fun k =>
  if k = (str! "s", str! "u") then [[(str! "uid", .int 5)], [(str! "uid", .int 6)]]
  else if k = (str! "s", str! "o") then [[(str! "oid", .int 7), (str! "uid", .int 5)], [(str! "oid", .int 8), (str! "uid", .int 6)]]
  else []

def lgDst : Dict Str TableMeta := [(str! "m.o", lgO (str! "m")), (str! "m.u", lgU (str! "m"))]

def lgSetting : Setting Int := { rxSetting lgDst with srcDb := [(str! "s.o", lgO (str! "s")), (str! "s.u", lgU (str! "s"))], src := lgSrc }

/-- The source with the key declared. -/
def lgDb : Dict Str TableMeta := [(str! "s.o", { lgO (str! "s") with foreignKeys := [⟨[str! "uid"], str! "s", str! "u", [str! "uid"]⟩] }), (str! "s.u", lgU (str! "s"))]

/-- User 5 has order 9. -/
def lgBefore : DbState := fun k =>
  if k = (str! "m", str! "u") then [[(str! "uid", .int 5)]]
  else if k = (str! "m", str! "o") then [[(str! "oid", .int 9), (str! "uid", .int 5)]]
  else []

def lgTables : Tables := dbTables lgSetting.srcDb

/-- Orders of user 6, with inferred foreign keys. -/
def lgCfg : PlannerConfig where
  targets := [(str! "s.o", { in_ := [(str! "uid", [.int 6])] })]
  infer := .schema

/-- Keys are compacted, every row is written twice, keys are inferred. -/
def lgC : RunConfig := { remap := dxRemap, infer := .schema, compact := { primaryKeys := true }, mult := { multiplier := 2 } }

def lgShow (R : RunResult) : Option RunErr × List (List Row) :=
  (R.err, [R.final (str! "m", str! "u"), R.final (str! "m", str! "o")])

theorem lgNames : planNames (planInternal lgCfg lgTables) = [str! "s.o", str! "s.u"] := by decide +kernel

theorem lgPass : wxPass (planInternal lgCfg lgTables) = [] := by decide +kernel

/-- The sampled order and user become 1, then 2 and 3. -/
theorem lg_result : (match planInternal lgCfg lgTables with
      | .ok p => some (lgShow (sample lgC lgSetting p lgBefore 0))
      | .error _ => none) =
    some (none, [[[(str! "uid", .int 5)], [(str! "uid", .int 2)], [(str! "uid", .int 3)]],
      [[(str! "oid", .int 9), (str! "uid", .int 5)], [(str! "oid", .int 2), (str! "uid", .int 2)], [(str! "oid", .int 3), (str! "uid", .int 3)]]]) := by
  decide +kernel

/-- The hypotheses on databases and plan hold of the example. -/
theorem lg_hyps {C : RunConfig} (hr : C.remap = dxRemap) (hf : C.filters = []) (hco : C.compact.columns = [])
    (hst : C.strategy = .error) (hmg : C.merge = false) {p : Plan} (hn : dkeys p.queries = [str! "s.o", str! "s.u"])
    {cfg : PlannerConfig} (hex : ∀ x ∈ cfg.extraFks, x.Valid) (htg : [] ∉ dkeys cfg.targets)
    (hused : UsedFk cfg lgTables (str! "s", str! "o") ⟨[str! "uid"], str! "s", str! "u", [str! "uid"]⟩ (str! "s", str! "u")) :
    RunOK C lgSetting p ∧ Input cfg lgTables ∧ PkOK (dbTables lgSetting.srcDb) lgSetting.src ∧
    Carried C lgSetting cfg lgTables p lgBefore lgDst (str! "s.o") (str! "s", str! "o") (str! "m", str! "o") (lgO (str! "s")) (lgO (str! "m"))
      (str! "s.u") (str! "s", str! "u") (str! "m", str! "u") (lgU (str! "s")) (lgU (str! "m")) ⟨[str! "uid"], str! "s", str! "u", [str! "uid"]⟩ := by
  have hreach : ∀ n d, n ∈ dkeys p.queries → DestOf C.remap n d → (d.1 ++ '.' :: d.2) ∈ dkeys lgDst → Reached C lgSetting p d := by
    intro n d h1 h2 h3
    obtain ⟨⟨m, t⟩, h4, h5⟩ := List.mem_map.1 h3
    have : ∀ e ∈ lgDst, e.1 = e.2.schema ++ '.' :: e.2.name ∧ '.' ∉ e.2.schema := by decide
    obtain ⟨g1, g2⟩ := this _ h4
    refine ⟨n, h1, d, h2, .inr ⟨d, ⟨m, t, h4, ?_, _, List.mem_singleton.2 rfl, ?_⟩, .refl⟩⟩
    · refine str_inj (k := (t.schema, t.name)) (k' := d) g2 ?_ (g1.symm.trans h5)
      obtain ⟨a, b, -, g3⟩ := h2
      exact parse_fst_nodot g3
    · dsimp only at h5
      rw [h5]
      simp [lgSetting, rxSetting, dxEq]
  have hdo : DestOf C.remap (str! "s.o") (str! "m", str! "o") := ⟨str! "s", str! "o", by decide, by rw [hr]; decide⟩
  have hdu : DestOf C.remap (str! "s.u") (str! "m", str! "u") := ⟨str! "s", str! "u", by decide, by rw [hr]; decide⟩
  refine ⟨?_, ⟨⟨by decide, ?_, ?_, ?_, ?_⟩, hex, htg⟩, ?_, ?_⟩
  · refine ⟨rxDb_ok (by decide) (by decide), rxDb_ok (by decide) (by decide), ?_, ?_, ?_, by rw [hn]; decide, by rw [hco]; exact .nil⟩
    · rintro a b ⟨n, t, fk, h1, -, h2, rfl⟩
      have : ∀ e ∈ lgDst, e.2.foreignKeys = [] := by decide
      rw [this (n, t) h1] at h2; cases h2
    · intro n t h
      have : ∀ e ∈ lgSetting.srcDb, e.2.columns.Nodup := by decide
      exact this (n, t) h
    · intro _ n _
      simp [lgSetting, rxSetting, dxEq]
  iterate 4
    · intro k t ht
      simp only [lgTables, dbTables, lgSetting, List.map_cons, List.map_nil, List.mem_cons, List.not_mem_nil, or_false] at ht
      rcases ht with ht | ht <;> cases ht <;> decide
  · intro k t ht _
    have ht := dget_some_mem ht
    simp only [dbTables, lgSetting, List.map_cons, List.map_nil, List.mem_cons, List.not_mem_nil, or_false] at ht
    rcases ht with ht | ht <;> cases ht <;> decide +kernel
  · refine ⟨⟨by rw [hn]; decide, by decide, by decide, hdo, hreach _ _ (by rw [hn]; decide) hdo (by decide), by decide⟩,
      ⟨by rw [hn]; decide, by decide, by decide, hdu, hreach _ _ (by rw [hn]; decide) hdu (by decide), by decide⟩,
      hused, ?_, fun _ => ?_, ?_, ?_, .inl ?_, ⟨fun _ => by unfold KeysUnique; decide +kernel, by decide +kernel⟩, ⟨fun _ => by unfold KeysUnique; decide +kernel, by decide +kernel⟩⟩
    · unfold Refers; decide +kernel
    · unfold Refers; decide +kernel
    · intro c hc
      rw [List.mem_singleton] at hc
      subst hc
      exact ⟨by decide, by rw [hf]; exact fun _ h => (nomatch h), by decide⟩
    · intro c hc
      rw [List.mem_singleton] at hc
      subst hc
      exact ⟨by decide, by rw [hf]; exact fun _ h => (nomatch h), by decide⟩
    · unfold strategyFor
      rw [if_neg (by rw [hmg]; simp)]
      exact hst

theorem lg_used : UsedFk lgCfg lgTables (str! "s", str! "o") ⟨[str! "uid"], str! "s", str! "u", [str! "uid"]⟩ (str! "s", str! "u") := by
  refine .inl ⟨.inr ⟨false, rfl, lgO (str! "s"), str! "uid", by decide, by decide, rfl, by decide, fun b' => ?_⟩, ?_⟩
  · constructor
    · rintro ⟨t, h1, h2, -⟩
      simp only [lgTables, dbTables, lgSetting, List.map_cons, List.map_nil, List.mem_cons, List.not_mem_nil, or_false, Prod.mk.injEq] at h1
      rcases h1 with ⟨-, rfl⟩ | ⟨rfl, rfl⟩
      · exact absurd h2 (by decide)
      · rfl
    · rintro rfl
      exact ⟨lgU (str! "s"), by decide, rfl, fun _ => rfl⟩
  · simp [IgnoredFk, lgCfg]

theorem lg_declares {p : Plan} (hn : dkeys p.queries = [str! "s.o", str! "s.u"]) :
    Declares lgSetting.fnmatch lgC.infer (dkeys p.queries) lgSetting.srcDb lgDb := by
  have h : lgDb = declareAll lgSetting.fnmatch lgC.infer [str! "s.o", str! "s.u"] lgSetting.srcDb := by decide
  rw [hn, h]
  exact declares_exists (rxDb_ok (by decide) (by decide))

theorem lg_follow {p : Plan} (hn : dkeys p.queries = [str! "s.o", str! "s.u"]) (hp : p.passthrough = []) :
    IdsFollow { lgC with infer := .none } { lgSetting with srcDb := lgDb } p [] := by
  have hfk : ∀ {n t fk}, (n, t) ∈ lgDb → fk ∈ t.foreignKeys → n = str! "s.o" ∧ fk = ⟨[str! "uid"], str! "s", str! "u", [str! "uid"]⟩ := by
    have : ∀ e ∈ lgDb, ∀ fk ∈ e.2.foreignKeys, e.1 = str! "s.o" ∧ fk = ⟨[str! "uid"], str! "s", str! "u", [str! "uid"]⟩ := by decide
    exact fun {n t fk} h1 h2 => this (n, t) h1 fk h2
  refine ⟨rfl, fun _ => ⟨?_, ?_⟩, ?_, fun _ _ h => (nomatch h), ?_, fun h => (nomatch h)⟩
  · intro n _ t ht fk h1 fk' h2 c d d' h3 h4
    obtain ⟨-, rfl⟩ := hfk ht h1
    obtain ⟨-, rfl⟩ := hfk ht h2
    simp only [List.zip_cons_cons, List.zip_nil_right, List.mem_singleton, Prod.mk.injEq] at h3 h4
    exact ⟨rfl, h3.2.trans h4.2.symm⟩
  · intro n _ t ht fk h1 tb h2 d hd fk' h3
    obtain ⟨-, rfl⟩ := hfk ht h1
    exact absurd (hfk h2 h3).1 (by decide)
  · intro _ n _ t ht fk h1
    obtain ⟨-, rfl⟩ := hfk ht h1
    rw [hn]; decide
  · intro n _ t ht fk h1 _ e he
    obtain ⟨rfl, rfl⟩ := hfk ht h1
    simp only [List.zip_cons_cons, List.zip_nil_right, List.mem_singleton] at he
    subst he
    have hu : MultCol (dbTables lgDb) lgC.mult (p.passthrough ++ lgC.mult.ignoreTables) (dkeys p.queries) (str! "s.u") (str! "uid") := by
      refine .pk (t := lgU (str! "s")) (by rw [hn]; decide) (by rw [hp]; decide) ⟨(str! "s", str! "u"), by decide, by decide⟩ (by decide) ?_
      intro cs h; cases h
    refine ⟨⟨fun _ => ⟨by decide, hu⟩, fun _ => ⟨by decide, ?_⟩⟩, fun _ => ?_⟩
    · exact .fk (by rw [hn]; decide) (by rw [hp]; decide) (t := { lgO (str! "s") with foreignKeys := [⟨[str! "uid"], str! "s", str! "u", [str! "uid"]⟩] }) ⟨(str! "s", str! "o"), by decide, by decide⟩ (List.mem_singleton.2 rfl) (by decide) hu
    · unfold timesWritten
      rw [hp]
      decide

/-- C80 on the example: the inferred key holds afterwards, although keys are compacted and multiplied and the
destination does not declare it. -/
theorem lg_refers : ∃ p, planInternal lgCfg lgTables = .ok p ∧
    ∀ r ∈ (sample lgC lgSetting p lgBefore 0).final (str! "m", str! "o"), (∀ c ∈ [str! "uid"], r.get c ≠ .null) →
      ∃ m ∈ (sample lgC lgSetting p lgBefore 0).final (str! "m", str! "u"), Refers [str! "uid"] [str! "uid"] r m := by
  have hn := lgNames
  have hp := lgPass
  have hres := lg_result
  cases h : planInternal lgCfg lgTables with
  | error e => rw [h] at hn; cases hn
  | ok p =>
    rw [h] at hn hp hres
    replace hn : dkeys p.queries = _ := hn
    obtain ⟨hok, hI, hpk, hca⟩ := lg_hyps (C := lgC) rfl rfl rfl rfl rfl hn (cfg := lgCfg) (fun _ h => nomatch h) (by decide) lg_used
    have hsch : (sample lgC lgSetting p lgBefore 0).schema = lgDst := schema_kept rfl
    rw [← hsch] at hca
    refine ⟨p, rfl, c80_inferred_partial hok rfl (lg_declares hn) (lg_follow hn hp) hI h ?_ hpk
      (Prod.mk.inj (Option.some.inj hres)).1 hca (t' := { lgO (str! "s") with foreignKeys := [⟨[str! "uid"], str! "s", str! "u", [str! "uid"]⟩] })
      (List.mem_cons_self ..) (List.mem_singleton.2 rfl) rfl (fun h => nomatch h)⟩
    intro n y hy
    have := dget_some_mem hy
    simp only [lgCfg, List.mem_cons, Prod.mk.injEq, List.not_mem_nil, or_false] at this
    obtain ⟨-, rfl⟩ := this
    intro h; cases h

/-- C81 on the example. -/
example {p : Plan} (hn : dkeys p.queries = [str! "s.o", str! "s.u"]) (hok : RunOK lgC lgSetting p) :
    sample lgC lgSetting p lgBefore 0 = sample { lgC with infer := .none } { lgSetting with srcDb := lgDb } p lgBefore 0 :=
  c81_run hok rfl (lg_declares hn)

/-- C81 of planning. -/
example : plan dxEq lgSetting.srcDb { lgCfg with select := [str! "s.o", str! "s.u"], includeDependencies := false } =
    plan dxEq lgDb { lgCfg with select := [str! "s.o", str! "s.u"], includeDependencies := false, infer := .none } := by
  have h : lgDb = declareAll dxEq .schema [str! "s.o", str! "s.u"] lgSetting.srcDb := by decide
  rw [h]
  refine c81_plan (rxDb_ok (by decide) (by decide)) ?_ rfl (declares_exists (rxDb_ok (by decide) (by decide)))
  intro n t h
  have : ∀ e ∈ lgSetting.srcDb, e.2.columns.Nodup := by decide
  exact this (n, t) h

/-! ### What is missing is false -/

/-- Keys are compacted, but not inferred. -/
def lgPlain : RunConfig := { remap := dxRemap, compact := { primaryKeys := true } }

theorem lg_plain_result : (match planInternal lgCfg lgTables with
      | .ok p => some (lgShow (sample lgPlain lgSetting p lgBefore 0))
      | .error _ => none) =
    some (none, [[[(str! "uid", .int 5)], [(str! "uid", .int 1)]],
      [[(str! "oid", .int 9), (str! "uid", .int 5)], [(str! "oid", .int 1), (str! "uid", .int 6)]]]) := by
  decide +kernel

theorem lg_broken {C : RunConfig} {p : Plan}
    (h : lgShow (sample C lgSetting p lgBefore 0) = (none, [[[(str! "uid", .int 5)], [(str! "uid", .int 1)]],
      [[(str! "oid", .int 9), (str! "uid", .int 5)], [(str! "oid", .int 1), (str! "uid", .int 6)]]])) :
    (sample C lgSetting p lgBefore 0).err = none ∧
    ¬ ∀ r ∈ (sample C lgSetting p lgBefore 0).final (str! "m", str! "o"), (∀ c ∈ [str! "uid"], r.get c ≠ .null) →
      ∃ m ∈ (sample C lgSetting p lgBefore 0).final (str! "m", str! "u"), Refers [str! "uid"] [str! "uid"] r m := by
  obtain ⟨h1, h2⟩ := Prod.mk.inj h
  obtain ⟨h3, h2⟩ := List.cons.inj h2
  obtain ⟨h4, -⟩ := List.cons.inj h2
  refine ⟨h1, ?_⟩
  rw [h3, h4]
  unfold Refers
  decide +kernel

/-- The missing part of C80 is false: if the planner infers foreign keys and the sampler does not, compaction breaks
references. -/
theorem c80_planner_inference_broken : ∃ p, planInternal lgCfg lgTables = .ok p ∧
    Carried lgPlain lgSetting lgCfg lgTables p lgBefore (sample lgPlain lgSetting p lgBefore 0).schema (str! "s.o") (str! "s", str! "o") (str! "m", str! "o") (lgO (str! "s")) (lgO (str! "m"))
      (str! "s.u") (str! "s", str! "u") (str! "m", str! "u") (lgU (str! "s")) (lgU (str! "m")) ⟨[str! "uid"], str! "s", str! "u", [str! "uid"]⟩ ∧
    (sample lgPlain lgSetting p lgBefore 0).err = none ∧
    ¬ ∀ r ∈ (sample lgPlain lgSetting p lgBefore 0).final (str! "m", str! "o"), (∀ c ∈ [str! "uid"], r.get c ≠ .null) →
      ∃ m ∈ (sample lgPlain lgSetting p lgBefore 0).final (str! "m", str! "u"), Refers [str! "uid"] [str! "uid"] r m := by
  have hn := lgNames
  have hres := lg_plain_result
  cases h : planInternal lgCfg lgTables with
  | error e => rw [h] at hn; cases hn
  | ok p =>
    rw [h] at hn hres
    obtain ⟨-, -, -, hca⟩ := lg_hyps (C := lgPlain) rfl rfl rfl rfl rfl hn (cfg := lgCfg) (fun _ h => nomatch h) (by decide) lg_used
    have hsch : (sample lgPlain lgSetting p lgBefore 0).schema = lgDst := schema_kept rfl
    exact ⟨p, rfl, by rw [hsch]; exact hca, lg_broken (Option.some.inj hres)⟩

/-- The key is an extra one. -/
def lgExtra : PlannerConfig where
  targets := [(str! "s.o", { in_ := [(str! "uid", [.int 6])] })]
  extraFks := [⟨str! "s.o", [str! "uid"], str! "s.u", [str! "uid"]⟩]

theorem lg_extra_names : planNames (planInternal lgExtra lgTables) = [str! "s.o", str! "s.u"] := by decide +kernel

theorem lg_extra_result : (match planInternal lgExtra lgTables with
      | .ok p => some (lgShow (sample lgPlain lgSetting p lgBefore 0))
      | .error _ => none) =
    some (none, [[[(str! "uid", .int 5)], [(str! "uid", .int 1)]],
      [[(str! "oid", .int 9), (str! "uid", .int 5)], [(str! "oid", .int 1), (str! "uid", .int 6)]]]) := by
  decide +kernel

theorem lg_extra_used : UsedFk lgExtra lgTables (str! "s", str! "o") ⟨[str! "uid"], str! "s", str! "u", [str! "uid"]⟩ (str! "s", str! "u") :=
  .inr ⟨⟨str! "s.o", [str! "uid"], str! "s.u", [str! "uid"]⟩, by simp [lgExtra], by decide, by decide, ⟨lgO (str! "s"), by decide, by decide⟩,
    ⟨lgU (str! "s"), by decide, by decide⟩, rfl⟩

/-- The missing part of C80 is false: the sampler does not know extra foreign keys, so compaction breaks them. -/
theorem c80_extra_key_broken : ∃ p, planInternal lgExtra lgTables = .ok p ∧
    Carried lgPlain lgSetting lgExtra lgTables p lgBefore (sample lgPlain lgSetting p lgBefore 0).schema (str! "s.o") (str! "s", str! "o") (str! "m", str! "o") (lgO (str! "s")) (lgO (str! "m"))
      (str! "s.u") (str! "s", str! "u") (str! "m", str! "u") (lgU (str! "s")) (lgU (str! "m")) ⟨[str! "uid"], str! "s", str! "u", [str! "uid"]⟩ ∧
    (sample lgPlain lgSetting p lgBefore 0).err = none ∧
    ¬ ∀ r ∈ (sample lgPlain lgSetting p lgBefore 0).final (str! "m", str! "o"), (∀ c ∈ [str! "uid"], r.get c ≠ .null) →
      ∃ m ∈ (sample lgPlain lgSetting p lgBefore 0).final (str! "m", str! "u"), Refers [str! "uid"] [str! "uid"] r m := by
  have hn := lg_extra_names
  have hres := lg_extra_result
  cases h : planInternal lgExtra lgTables with
  | error e => rw [h] at hn; cases hn
  | ok p =>
    rw [h] at hn hres
    obtain ⟨-, -, -, hca⟩ := lg_hyps (C := lgPlain) rfl rfl rfl rfl rfl hn (cfg := lgExtra)
      (by simp [lgExtra, ExtraFk.Valid]) (by decide) lg_extra_used
    have hsch : (sample lgPlain lgSetting p lgBefore 0).schema = lgDst := schema_kept rfl
    exact ⟨p, rfl, by rw [hsch]; exact hca, lg_broken (Option.some.inj hres)⟩

/-- Nothing is compacted. -/
def lgKept : RunConfig := { remap := dxRemap }

theorem lg_kept_result : (match planInternal lgExtra lgTables with
      | .ok p => some (lgShow (sample lgKept lgSetting p lgBefore 0))
      | .error _ => none) =
    some (none, [[[(str! "uid", .int 5)], [(str! "uid", .int 6)]],
      [[(str! "oid", .int 9), (str! "uid", .int 5)], [(str! "oid", .int 8), (str! "uid", .int 6)]]]) := by
  decide +kernel

/-- C80 without transformations: the extra key holds. -/
theorem lg_extra_refers : ∃ p, planInternal lgExtra lgTables = .ok p ∧
    ∀ r ∈ (sample lgKept lgSetting p lgBefore 0).final (str! "m", str! "o"), (∀ c ∈ [str! "uid"], r.get c ≠ .null) →
      ∃ m ∈ (sample lgKept lgSetting p lgBefore 0).final (str! "m", str! "u"), Refers [str! "uid"] [str! "uid"] r m := by
  have hn := lg_extra_names
  have hres := lg_kept_result
  cases h : planInternal lgExtra lgTables with
  | error e => rw [h] at hn; cases hn
  | ok p =>
    rw [h] at hn hres
    obtain ⟨hok, hI, hpk, hca⟩ := lg_hyps (C := lgKept) rfl rfl rfl rfl rfl hn (cfg := lgExtra)
      (by simp [lgExtra, ExtraFk.Valid]) (by decide) lg_extra_used
    have hsch : (sample lgKept lgSetting p lgBefore 0).schema = lgDst := schema_kept rfl
    rw [← hsch] at hca
    refine ⟨p, rfl, c80_same_ids_partial hok ⟨⟨rfl, rfl⟩, fun _ _ h => (nomatch h), by decide, rfl⟩ hI h ?_ hpk
      (Prod.mk.inj (Option.some.inj hres)).1 hca⟩
    intro n y hy
    have := dget_some_mem hy
    simp only [lgExtra, List.mem_cons, Prod.mk.injEq, List.not_mem_nil, or_false] at this
    obtain ⟨-, rfl⟩ := this
    intro h; cases h

/-- The restrictions of C81 are needed: with dependencies, declared keys make planning load tables that inferred keys do
not. -/
theorem c81_dependencies_not_inferred :
    planNames (plan dxEq lgSetting.srcDb { lgCfg with select := [str! "s.o"], includeDependencies := true }) = [str! "s.o"] ∧
    planNames (plan dxEq lgDb { lgCfg with select := [str! "s.o"], includeDependencies := true, infer := .none }) =
      [str! "s.o", str! "s.u"] := by
  decide +kernel

/-- The restrictions of C81 are needed: tables created do not have the inferred keys. -/
theorem c81_created_without_inferred : (match planInternal lgCfg lgTables with
      | .ok p => some ((sample { lgC with create := true } { lgSetting with dstDb := [] } p (fun _ => []) 0).schema.map fun e => (e.1, e.2.foreignKeys))
      | .error _ => none) = some [(str! "m.o", []), (str! "m.u", [])] ∧
    (match planInternal lgCfg lgTables with
      | .ok p => some ((sample { lgC with create := true, infer := .none } { lgSetting with dstDb := [], srcDb := lgDb } p (fun _ => []) 0).schema.map fun e => (e.1, e.2.foreignKeys))
      | .error _ => none) = some [(str! "m.o", [⟨[str! "uid"], str! "m", str! "u", [str! "uid"]⟩]), (str! "m.u", [])] := by
  decide +kernel

end Subsetter.Props
