import Verif.Props.Command
import Verif.Props.Enforce

/-
Property C73, continued: commands with compaction and multiplication.
-/
namespace Subsetter.Props
open Subsetter Spec

variable {σ : Type} {M : Machine σ} {files : List Yaml} {c : Config} {P : PlannerConfig} {X : SamplerConfig}
  {src dst : EngineArgs} {db : DbConfig} {remap : List (Str × Str)} {strategy : Strategy} {p : Plan}
  {S : DbState} {F : Files} {s : σ} {truncate : Bool}

theorem run_ok_named {C : RunConfig} (hD : SourceDb (M.setting src (some dst))) (hd : DestinationDb (M.setting src (some dst)))
    (hex : ∀ x ∈ P.extraFks, x.Valid) (htg : [] ∉ dkeys P.targets) (hC : (dkeys C.compact.columns).Nodup)
    (hp : plan fnmatch (M.schema src) P = .ok p) : RunOK C (M.setting src (some dst)) p := by
  rw [← M.setting_schema src (some dst)] at hp
  exact ⟨hD.ok, hd.ok, hd.closed, hD.columns, fun _ n hn => by rw [M.setting_fnmatch]; exact c67_self (hd.names n hn),
    (plan_names hD hex htg hp).1, hC⟩

/-- C73. Foreign keys hold in the destination after every commit of `subset --create`, whether or not the run fails, also
if identifiers are compacted and rows multiplied, as long as columns of foreign keys are treated as those they refer
to (C74).  Missing as in `c74_created_partial`. -/
theorem c73_follow_partial (hu : Understood M files c src) (hP : c.planner = some P)
    (hp : plan fnmatch (M.schema src) P = .ok p) (htg : [] ∉ dkeys P.targets) (hign : P.ignoreFks = [])
    (hall : ∀ n y, dget P.targets n = some y → y.all = true → y.amount = none)
    (hX : c.sampler = some X) (hcn : (dkeys X.compact.columns).Nodup) (hout : X.output = .database db remap strategy false)
    (hdst : databaseEngine M.int M.env (some (str! "SUBSET_DESTINATION_")) db = .ok dst)
    (hD : SourceDb (M.setting src (some dst))) (hd : DestinationDb (M.setting src (some dst)))
    (hpk : PkOK (dbTables (M.schema src)) (M.setting src (some dst)).src)
    (hsrc : Intact (M.schema src) (M.setting src (some dst)).src) (hcols : FkColumnsOK (M.setting src (some dst)))
    (hfil : KeysUnfiltered { remap := id, filters := X.filters } (M.setting src (some dst)))
    (hrefs : RefsToKeys { remap := id, strategy := strategy } (M.setting src (some dst)))
    (hfo : IdsFollow { remap := id, infer := X.infer, compact := X.compact, mult := X.mult } (M.setting src (some dst)) p [])
    (hfree : DestinationFree { remap := renamed M.sub remap } (M.setting src (some dst)) p S)
    (h0 : Intact (M.setting src (some dst)).dstDb S) (hnew : ∀ k, ¬ InDb (M.setting src (some dst)).dstDb k → S k = []) :
    ∃ R, cmdSubset M files truncate true S F s = .ok (.database R) ∧ ∀ B ∈ R.hist, Intact R.schema B := by
  have hex := (c71_planner (c71_config.2 hu.config) hP).1
  rw [subset_eq hu hP hp, run_database hX hout hdst]
  have hok := run_ok_named (C := { infer := X.infer, filters := X.filters, compact := X.compact, mult := X.mult, remap := renamed M.sub remap, strategy := strategy, merge := false, truncate := truncate, create := true }) hD hd hex htg
    hcn hp
  rw [← M.setting_schema src (some dst), ← M.setting_fnmatch src (some dst)] at hp
  rw [← M.setting_schema src (some dst)] at hpk hsrc
  exact ⟨_, rfl, c74_created_partial hok rfl hex htg hp hign hall rfl hpk hsrc hcols hfil hrefs
    ⟨hfo.infer, hfo.simple, hfo.closed, hfo.named, hfo.mult, fun h => nomatch h⟩
    ⟨hfree.dest, hfree.differ, hfree.free, hfree.circles⟩ h0 hnew⟩

/-- C73. A destination that checks foreign keys and unique constraints at every insert (C83) takes all that
`subset --create` writes: the command ends as it does without these checks. -/
theorem c73_enforced (hu : Understood M files c src) (hP : c.planner = some P)
    (hp : plan fnmatch (M.schema src) P = .ok p) (htg : [] ∉ dkeys P.targets) (hign : P.ignoreFks = [])
    (hall : ∀ n y, dget P.targets n = some y → y.all = true → y.amount = none)
    (hX : c.sampler = some X) (hcn : (dkeys X.compact.columns).Nodup) (hout : X.output = .database db remap strategy false)
    (hdst : databaseEngine M.int M.env (some (str! "SUBSET_DESTINATION_")) db = .ok dst)
    (hD : SourceDb (M.setting src (some dst))) (hd : DestinationDb (M.setting src (some dst)))
    (hpk : PkOK (dbTables (M.schema src)) (M.setting src (some dst)).src)
    (huq : UniqueOK (dbTables (M.schema src)) (M.setting src (some dst)).src)
    (hsrc : Intact (M.schema src) (M.setting src (some dst)).src) (hcols : FkColumnsOK (M.setting src (some dst)))
    (hfil : KeysUnfiltered { remap := id, filters := X.filters } (M.setting src (some dst)))
    (hrefs : RefsToKeys { remap := id, strategy := strategy } (M.setting src (some dst)))
    (hfo : IdsFollow { remap := id, infer := X.infer, compact := X.compact, mult := X.mult } (M.setting src (some dst)) p [])
    (hucols : ∀ n t, (n, t) ∈ M.schema src → ∀ u ∈ t.uniques, ∀ c ∈ u, c ∈ t.columns)
    (hufil : ∀ n fs, (n, fs) ∈ X.filters → ∀ f ∈ fs, ∀ c ∈ FilterCfg.writes f, ∀ t, (n, t) ∈ M.schema src →
      ∀ u ∈ t.uniques, c ∉ u)
    (humul : ∀ n k t, n ∈ dkeys p.queries → parseTableName n = some k → (n, t) ∈ M.schema src → ∀ u ∈ t.uniques,
      1 < timesWritten { remap := id, mult := X.mult } p n → ∃ c ∈ u,
        Multiplied { remap := id, mult := X.mult } (M.setting src (some dst)) p n c ∧
        ∀ r ∈ (M.setting src (some dst)).src k, r.get c = .null ∨ ∃ v, r.get c = .int v)
    (hfree : DestinationFree { remap := renamed M.sub remap } (M.setting src (some dst)) p S)
    (h0 : Enforced (M.setting src (some dst)).dstDb S) (hnew : ∀ k, ¬ InDb (M.setting src (some dst)).dstDb k → S k = [])
    {ok : DbState → Dict Str TableMeta → Bool} (hchk : ∀ B schema, Enforced schema B → ok B schema = true) :
    ∃ R, cmdSubset M files truncate true S F s = .ok (.database R) ∧
      sampleChecked (fun B => ok B R.schema) { infer := X.infer, filters := X.filters, compact := X.compact, mult := X.mult, remap := renamed M.sub remap, strategy := strategy, merge := false, truncate := truncate, create := true } (M.setting src (some dst)) p S s = R := by
  have hex := (c71_planner (c71_config.2 hu.config) hP).1
  rw [subset_eq hu hP hp, run_database hX hout hdst]
  have hok := run_ok_named (C := { infer := X.infer, filters := X.filters, compact := X.compact, mult := X.mult, remap := renamed M.sub remap, strategy := strategy, merge := false, truncate := truncate, create := true }) hD hd hex htg
    hcn hp
  rw [← M.setting_schema src (some dst), ← M.setting_fnmatch src (some dst)] at hp
  rw [← M.setting_schema src (some dst)] at hpk hsrc huq hucols hufil humul
  refine ⟨_, rfl, c83_created hok rfl hex htg hp hign hall rfl hpk huq hsrc hcols hfil hrefs
    ⟨hfo.infer, hfo.simple, hfo.closed, hfo.named, hfo.mult, fun h => nomatch h⟩ hucols hufil humul
    ⟨hfree.dest, hfree.differ, hfree.free, hfree.circles⟩ h0 hnew fun B h => hchk B _ h⟩

/-! ### Example -/

/-- A file with an output to a database in which identifiers are numbered anew from 100. -/
def zxCompact : Yaml := .map [(str! "sampler", .map [(str! "output", .map [(str! "mode", gxStr (str! "database")),
  (str! "dialect", gxStr (str! "sqlite")), (str! "database", gxStr (str! "b.db")),
  (str! "remap", .seq [.map [(str! "search", gxStr (str! "^s")), (str! "replace", gxStr (str! "m"))]])]),
  (str! "compact", .map [(str! "primary_keys", .leaf (.bool true)), (str! "start_key", .leaf (.int 100))])])]

def zxCompactSampler : SamplerConfig := { output := zxOut, filters := [], mult := {}, infer := .none, compact := { primaryKeys := true, startKey := 100 } }

theorem zx_follow {p : Plan} (hn : dkeys p.queries = [str! "s.u", str! "s.o"]) :
    IdsFollow { remap := id, infer := .none, compact := { primaryKeys := true, startKey := 100 }, mult := {} } (axSetting fnmatch) p [] := by
  have hfk : ∀ {n t fk}, (n, t) ∈ (rxSetting []).srcDb → fk ∈ t.foreignKeys → n = str! "s.o" ∧ fk = ⟨[str! "uid"], str! "s", str! "u", [str! "id"]⟩ := by
    intro n t fk h hf
    simp only [rxSetting, List.mem_cons, Prod.mk.injEq, List.not_mem_nil, or_false] at h
    rcases h with ⟨rfl, rfl⟩ | ⟨rfl, rfl⟩
    · simp only [rxO, List.mem_cons, List.not_mem_nil, or_false] at hf
      exact ⟨rfl, hf⟩
    · cases hf
  have hm : ∀ {n c}, ¬ Multiplied { remap := id, infer := .none, compact := { primaryKeys := true, startKey := 100 }, mult := {} } (axSetting fnmatch) p n c :=
    fun h => absurd h.1 (by decide)
  refine ⟨rfl, fun _ => ⟨?_, ?_⟩, ?_, fun _ _ h => (nomatch h), ?_, fun h => nomatch h⟩
  · intro n _ t ht fk h1 fk' h2 c d d' h3 h4
    obtain ⟨-, rfl⟩ := hfk ht h1
    obtain ⟨-, rfl⟩ := hfk ht h2
    simp only [List.zip_cons_cons, List.zip_nil_right, List.mem_singleton, Prod.mk.injEq] at h3 h4
    exact ⟨rfl, h3.2.trans h4.2.symm⟩
  · intro n _ t ht fk h1 tb h2 d hd fk' h3
    obtain ⟨-, rfl⟩ := hfk ht h1
    exact absurd (hfk h2 h3).1 (by decide)
  · intro _ n _ t ht fk h1
    obtain ⟨-, rfl⟩ := hfk ht h1
    rw [hn]; decide
  · intro n _ t ht fk h1 _ e he
    exact ⟨⟨fun h => (hm h).elim, fun h => (hm h).elim⟩, fun h => (hm h).elim⟩

/-- C73 on the example: orders and users get new identifiers, foreign keys hold after every commit, and a destination
that checks constraints accepts all of it. -/
theorem zx_compact (L : Lax) (K : Codes) (F : Files) (s : Int) :
    ∃ R, cmdSubset (zxMachine L K) [zxPlanner, zxCompact] false true (fun _ => []) F s = .ok (.database R) ∧
      (∀ B ∈ R.hist, Intact R.schema B) ∧
      ∃ p, plan fnmatch (rxSetting []).srcDb axCfg = .ok p ∧
        sampleChecked (checkDb R.schema) { compact := { primaryKeys := true, startKey := 100 }, remap := renamed (fun _ _ n => dxRemap n) [(str! "^s", str! "m")], create := true } (axSetting fnmatch) p (fun _ => []) s = R := by
  obtain ⟨src, dst, hu, hd⟩ : ∃ src dst, Understood (zxMachine L K) [zxPlanner, zxCompact] { source := zxDb (str! "a.db"), planner := some axCfg, sampler := some zxCompactSampler } src ∧
    databaseEngine (zxMachine L K).int (zxMachine L K).env (some (str! "SUBSET_DESTINATION_")) (zxDb (str! "b.db")) = .ok dst :=
    ⟨_, _, ⟨c71_config.1 rfl, rfl⟩, rfl⟩
  obtain ⟨p, hp, hn⟩ := zx_plan
  have hfree : DestinationFree { remap := renamed (zxMachine L K).sub [(str! "^s", str! "m")] } (axSetting fnmatch) p (fun _ => []) :=
    ax_free rfl hn
  have hall : ∀ n y, dget axCfg.targets n = some y → y.all = true → y.amount = none := by
    intro n y hy
    have := dget_some_mem hy
    simp only [axCfg, exCfg, List.mem_cons, Prod.mk.injEq, List.not_mem_nil, or_false] at this
    obtain ⟨-, rfl⟩ := this
    intro h; cases h
  have hsrc : Intact (rxSetting []).srcDb (axSetting fnmatch).src := by
    rintro a fk b ⟨n, t, h1, rfl, h2, rfl⟩
    simp only [rxSetting, List.mem_cons, Prod.mk.injEq, List.not_mem_nil, or_false] at h1
    rcases h1 with ⟨-, rfl⟩ | ⟨-, rfl⟩
    · simp only [rxO, List.mem_cons, List.not_mem_nil, or_false] at h2
      subst h2
      have : ∀ r ∈ exSrc (str! "s", str! "o"), Resolves ⟨[str! "uid"], str! "s", str! "u", [str! "id"]⟩ r (exSrc (str! "s", str! "u")) := by
        unfold Resolves Refers
        decide +kernel
      exact this
    · cases h2
  have hcols : FkColumnsOK (axSetting fnmatch) := by
    intro n t h fk hfk
    have h1 : ∀ e ∈ (rxSetting []).srcDb, ∀ fk ∈ e.2.foreignKeys, ∀ c ∈ fk.columns, c ∈ e.2.columns := by decide
    exact ⟨h1 (n, t) h fk hfk, ax_source.fkColumns n t h fk hfk⟩
  have hnu : ∀ {n t}, (n, t) ∈ (rxSetting []).srcDb → t.uniques = [] := by
    intro n t h
    have : ∀ e ∈ (rxSetting []).srcDb, e.2.uniques = [] := by decide
    exact this _ h
  have h0 : Intact (axSetting fnmatch).dstDb (fun _ => []) := by
    rintro a fk b ⟨n, t, h, -⟩
    cases h
  obtain ⟨R, h1, h2⟩ := c73_follow_partial (F := F) (s := s) (truncate := false) hu rfl hp (by decide) rfl hall rfl (by decide) rfl hd
    zx_source zx_dest ax_source.pk hsrc hcols (fun _ _ h => (nomatch h)) (.inl rfl) (zx_follow hn) hfree h0 (fun _ _ => rfl)
  obtain ⟨R', g1, g2⟩ := c73_enforced (F := F) (s := s) (truncate := false) (ok := fun B schema => checkDb schema B) hu rfl hp (by decide) rfl hall rfl (by decide) rfl hd
    zx_source zx_dest ax_source.pk (fun k t h u hu => by
      have : ∀ e ∈ dbTables (rxSetting []).srcDb, e.2.uniques = [] := by decide
      rw [this _ (dget_some_mem h)] at hu
      cases hu)
    hsrc hcols (fun _ _ h => (nomatch h)) (.inl rfl) (zx_follow hn)
    (fun n t h u hu => by rw [hnu h] at hu; cases hu) (fun _ _ h => nomatch h) (fun n k t _ _ h u hu => by rw [hnu h] at hu; cases hu) hfree
    ⟨h0, fun n t h => nomatch h⟩ (fun _ _ => rfl) (fun B schema h => checkDb_iff.2 h)
  rw [h1] at g1
  cases g1
  exact ⟨R, h1, h2, p, hp, g2⟩

end Subsetter.Props
