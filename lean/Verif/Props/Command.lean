import Verif.Spec.Command
import Verif.Props.RunCreated
import Verif.Props.Main
import Verif.Props.ConfigFile
import Verif.Props.RunDirectory
import Verif.Props.Fnmatch

/-
Property C73: commands, from the documents of the configuration to the data.
-/
namespace Subsetter.Props
open Subsetter Spec

variable {σ : Type} {M : Machine σ} {files : List Yaml} {c : Config} {P : PlannerConfig} {X : SamplerConfig}
  {src dst : EngineArgs} {db : DbConfig} {remap : List (Str × Str)} {strategy : Strategy} {p : Plan}
  {S : DbState} {F : Files} {s s' : σ} {truncate create : Bool}

theorem renamed_foldl (sub : Str → Str → Str → Str) (l : List (Str × Str)) (n : Str) :
    l.foldl (fun n x => sub x.1 x.2 n) n = renamed sub l n := by
  induction l generalizing n with
  | nil => rfl
  | cons x l ih => exact ih _

/-- The configuration of a run to a database. -/
theorem runConfig_database {merge : Bool} (h : X.output = .database db remap strategy merge) :
    runConfig M.sub X truncate create = { infer := X.infer, filters := X.filters, compact := X.compact, mult := X.mult, remap := renamed M.sub remap, strategy := strategy, merge := merge, truncate := truncate, create := create } := by
  unfold runConfig
  rw [h]
  dsimp only
  congr
  funext n
  exact renamed_foldl _ _ _

theorem keepsRows_plain {C : RunConfig} (h : KeepsRows X) (h1 : C.filters = X.filters) (h2 : C.compact = X.compact)
    (h3 : C.mult = X.mult) (h4 : C.merge = false) : Plain C :=
  ⟨by rw [h1]; exact h.filters, by rw [h2]; exact h.compactKeys, by rw [h2, h.compactColumns]; exact fun _ _ h => (nomatch h),
    by rw [h3]; exact h.once, h4⟩

/-- Names of a plan are different and are names of the source. -/
theorem plan_names {D : Setting σ} (hD : SourceDb D) (hex : ∀ x ∈ P.extraFks, x.Valid) (htg : [] ∉ dkeys P.targets)
    {f : Str → Str → Bool} (hp : plan f D.srcDb P = .ok p) :
    (dkeys p.queries).Nodup ∧ ∀ n ∈ dkeys p.queries, fnmatch n n = true := by
  obtain ⟨T, hI, hpi, hT⟩ := planned_from hD.ok hex htg hp
  obtain ⟨ign, pass, T₁, T₂, found, ord, hpl⟩ := planning hI hpi
  refine ⟨?_, fun n hn => c67_self (hD.names n ?_)⟩
  · rw [show dkeys p.queries = _ from hpl.shape.keys]
    exact map_str_nodup hpl.ok (fun k hk => hpl.shape.inT hpl.ok hk) hpl.shape.nodup
  · rw [show dkeys p.queries = _ from hpl.shape.keys, List.mem_map] at hn
    obtain ⟨k, h1, rfl⟩ := hn
    obtain ⟨t, ht⟩ := Option.isSome_iff_exists.1 (hpl.isSome_iff.1 (hpl.shape.inT hpl.ok h1))
    exact List.mem_map_of_mem (f := Prod.fst) (hT k t (dget_some_mem ht))

/-- What `subset` does with a configuration that is understood and a plan. -/
theorem subset_eq (hu : Understood M files c src) (hP : c.planner = some P) (hp : plan fnmatch (M.schema src) P = .ok p) :
    cmdSubset M files truncate create S F s = cmdRun M src c.sampler truncate create p S F s := by
  unfold cmdSubset sourceEngine
  rw [c71_config.2 hu.config]
  dsimp only
  rw [hP]
  dsimp only
  rw [hu.source]
  dsimp only
  rw [hp]

theorem run_database {merge : Bool} (hX : c.sampler = some X) (hout : X.output = .database db remap strategy merge)
    (hdst : databaseEngine M.int M.env (some (str! "SUBSET_DESTINATION_")) db = .ok dst) :
    cmdRun M src c.sampler truncate create p S F s = .ok (.database (sample
      { infer := X.infer, filters := X.filters, compact := X.compact, mult := X.mult, remap := renamed M.sub remap, strategy := strategy, merge := merge, truncate := truncate, create := create } (M.setting src (some dst)) p S s)) := by
  rw [← runConfig_database hout]
  unfold cmdRun
  rw [hX]
  dsimp only
  split
  · rename_i h; rw [hout] at h; cases h
  · rename_i h
    rw [hout] at h
    cases h
    rw [hdst]

theorem run_ok {C : RunConfig} (hD : SourceDb (M.setting src (some dst))) (hd : DestinationDb (M.setting src (some dst)))
    (hex : ∀ x ∈ P.extraFks, x.Valid) (htg : [] ∉ dkeys P.targets) (hC : C.compact.columns = [])
    (hp : plan fnmatch (M.schema src) P = .ok p) : RunOK C (M.setting src (some dst)) p := by
  rw [← M.setting_schema src (some dst)] at hp
  exact ⟨hD.ok, hd.ok, hd.closed, hD.columns, fun _ n hn => by rw [M.setting_fnmatch]; exact c67_self (hd.names n hn),
    (plan_names hD hex htg hp).1, by rw [hC]; exact .nil⟩

/-- C73. If the documents are a configuration whose planner makes a plan of the source, ignores no foreign keys and
includes dependencies, and whose sampler writes untransformed rows to a database, then `subset --create` into a database
without the planned tables exits with 0, and every planned table was created and holds its sample. -/
theorem c73_subset (hu : Understood M files c src) (hP : c.planner = some P) (hp : plan fnmatch (M.schema src) P = .ok p)
    (htg : [] ∉ dkeys P.targets) (hdep : P.includeDependencies = true) (hign : P.ignoreFks = [])
    (hcirc : ∀ k, Named P.passthrough k → ¬ Relation.TransGen (DbRef (M.schema src)) k k)
    (hX : c.sampler = some X) (hrows : KeepsRows X) (hout : X.output = .database db remap strategy false)
    (hdst : databaseEngine M.int M.env (some (str! "SUBSET_DESTINATION_")) db = .ok dst)
    (hD : SourceDb (M.setting src (some dst))) (hd : DestinationDb (M.setting src (some dst)))
    (hdia : (M.setting src (some dst)).dialect ≠ .generic ∨ strategy = .error) (hsrc : SourceOK (M.setting src (some dst)))
    (hfree : DestinationFree { remap := renamed M.sub remap } (M.setting src (some dst)) p S) :
    ∃ R Smp, cmdSubset M files truncate true S F s = .ok (.database R) ∧
      exitStatus (cmdSubset M files truncate true S F s) = 0 ∧
      IsSample (M.setting src (some dst)).engine (dbTables (M.schema src)) (M.setting src (some dst)).src p Smp ∧
      ∀ n ∈ dkeys p.queries, ∃ k kd t td, parseTableName n = some k ∧ (n, t) ∈ M.schema src ∧
        DestOf (renamed M.sub remap) n kd ∧ (kd.1 ++ '.' :: kd.2, td) ∈ R.schema ∧
        CopyOf (renamed M.sub remap) (dkeys p.queries) t td ∧
        R.final kd = (Smp k).map fun r => t.columns.map fun c => (c, r.get c) := by
  have hex := (c71_planner (c71_config.2 hu.config) hP).1
  rw [subset_eq hu hP hp, run_database hX hout hdst]
  have hok := run_ok (C := { infer := X.infer, filters := X.filters, compact := X.compact, mult := X.mult, remap := renamed M.sub remap, strategy := strategy, merge := false, truncate := truncate, create := true }) hD hd hex htg
    hrows.compactColumns hp
  have hp' := hp
  rw [← M.setting_schema src (some dst), ← M.setting_fnmatch src (some dst)] at hp'
  rw [← M.setting_schema src (some dst)] at hcirc
  obtain ⟨h1, Smp, h2, h3⟩ := c59_create_and_fill (S := S) (s := s) hok (keepsRows_plain hrows rfl rfl rfl rfl) rfl hdia hex htg hp' hdep
    hign hcirc (fun n hn => by rw [M.setting_fnmatch]; exact (plan_names hD hex htg hp').2 n hn) hsrc
    ⟨hfree.dest, hfree.differ, hfree.free, hfree.circles⟩
  rw [M.setting_schema] at h2 h3
  refine ⟨_, Smp, rfl, ?_, h2, h3⟩
  unfold exitStatus
  dsimp only
  rw [h1]
  rfl

/-- C73. Whatever filters are applied to columns other than those of keys, and even if the run fails: foreign keys hold
in the destination after every commit of `subset --create`, if they hold in source and destination before.
Missing as in `c60_created_partial`. -/
theorem c73_intact_partial (hu : Understood M files c src) (hP : c.planner = some P)
    (hp : plan fnmatch (M.schema src) P = .ok p) (htg : [] ∉ dkeys P.targets) (hign : P.ignoreFks = [])
    (hall : ∀ n y, dget P.targets n = some y → y.all = true → y.amount = none)
    (hX : c.sampler = some X) (hids : KeepsIds X) (hout : X.output = .database db remap strategy false)
    (hdst : databaseEngine M.int M.env (some (str! "SUBSET_DESTINATION_")) db = .ok dst)
    (hD : SourceDb (M.setting src (some dst))) (hd : DestinationDb (M.setting src (some dst)))
    (hpk : PkOK (dbTables (M.schema src)) (M.setting src (some dst)).src)
    (hsrc : Intact (M.schema src) (M.setting src (some dst)).src) (hcols : FkColumnsOK (M.setting src (some dst)))
    (hfil : KeysUnfiltered { remap := id, filters := X.filters } (M.setting src (some dst)))
    (hrefs : RefsToKeys { remap := id, strategy := strategy } (M.setting src (some dst)))
    (hfree : DestinationFree { remap := renamed M.sub remap } (M.setting src (some dst)) p S)
    (h0 : Intact (M.setting src (some dst)).dstDb S) (hnew : ∀ k, ¬ InDb (M.setting src (some dst)).dstDb k → S k = []) :
    ∃ R, cmdSubset M files truncate true S F s = .ok (.database R) ∧ ∀ B ∈ R.hist, Intact R.schema B := by
  have hex := (c71_planner (c71_config.2 hu.config) hP).1
  rw [subset_eq hu hP hp, run_database hX hout hdst]
  have hok := run_ok (C := { infer := X.infer, filters := X.filters, compact := X.compact, mult := X.mult, remap := renamed M.sub remap, strategy := strategy, merge := false, truncate := truncate, create := true }) hD hd hex htg
    hids.compactColumns hp
  rw [← M.setting_schema src (some dst), ← M.setting_fnmatch src (some dst)] at hp
  rw [← M.setting_schema src (some dst)] at hpk hsrc
  refine ⟨_, rfl, c60_created_partial hok ⟨hids.compactKeys, ?_, hids.once, rfl⟩ hex htg hp hign hall rfl hpk hsrc hcols
    hfil hrefs ⟨hfree.dest, hfree.differ, hfree.free, hfree.circles⟩ h0 hnew⟩
  dsimp only
  rw [hids.compactColumns]
  exact fun _ _ h => (nomatch h)

/-- C73. With a directory as output `subset` exits with 0 and the file of every planned table holds its sample; other
files are as before. -/
theorem c73_directory {dir : Str} (hu : Understood M files c src) (hP : c.planner = some P)
    (hp : plan fnmatch (M.schema src) P = .ok p) (htg : [] ∉ dkeys P.targets)
    (hX : c.sampler = some X) (hrows : KeepsRows X) (hout : X.output = .directory dir) (hD : SourceDb (M.setting src none)) :
    ∃ F' Smp, cmdSubset M files truncate create S F s = .ok (.directory F' none) ∧
      exitStatus (cmdSubset M files truncate create S F s) = 0 ∧
      IsSample (M.setting src none).engine (dbTables (M.schema src)) (M.setting src none).src p Smp ∧
      (∀ n ∈ dkeys p.queries, ∃ k t, parseTableName n = some k ∧ (n, t) ∈ M.schema src ∧
        F' (fileOf n) = some ((Smp k).map fun r => t.columns.map fun c => (c, r.get c))) ∧
      ∀ f, (∀ n ∈ dkeys p.queries, f ≠ fileOf n) → F' f = F f := by
  have hex := (c71_planner (c71_config.2 hu.config) hP).1
  rw [subset_eq hu hP hp]
  have hp' := hp
  rw [← M.setting_schema src none] at hp'
  obtain ⟨hnd, hself⟩ := plan_names hD hex htg hp'
  rw [← M.setting_fnmatch src none] at hp'
  have hC : runConfig M.sub X truncate create = { infer := X.infer, filters := X.filters, compact := X.compact, mult := X.mult, remap := id, truncate := truncate, create := create } := by
    unfold runConfig
    rw [hout]
  obtain ⟨F', Smp, h1, h2, h3, h4⟩ := c66_planned (F := F) (s := s) (C := runConfig M.sub X truncate create)
    (D := M.setting src none) ⟨hD.ok, hD.columns, hnd, by rw [hC]; dsimp only; rw [hrows.compactColumns]; exact .nil⟩
    (by rw [hC]; exact keepsRows_plain hrows rfl rfl rfl rfl) hex htg hp' (fun n hn => by rw [M.setting_fnmatch]; exact hself n hn)
  rw [M.setting_schema] at h2 h3
  have hr : cmdRun M src c.sampler truncate create p S F s = .ok (.directory F' none) := by
    unfold cmdRun
    rw [hX]
    dsimp only
    split
    · rw [h1]
    · rename_i h; rw [hout] at h; cases h
  rw [hr]
  exact ⟨F', Smp, rfl, rfl, h2, h3, h4⟩

theorem plan_eq (hu : Understood M files c src) (hP : c.planner = some P) (h : cmdPlan M files = .ok p) :
    plan fnmatch (M.schema src) P = .ok p := by
  unfold cmdPlan sourceEngine at h
  rw [c71_config.2 hu.config] at h
  dsimp only at h
  rw [hP] at h
  dsimp only at h
  rw [hu.source] at h
  dsimp only at h
  cases e : plan fnmatch (M.schema src) P with
  | error e' => rw [e] at h; cases h
  | ok p' => rw [e] at h; cases h; rfl

/-- C73. Under the conditions of `c73_subset` the commands `plan` and `sample --create`, with any file that holds the
plan, leave the same as `subset --create`. -/
theorem c73_two_commands {file : Yaml} (hu : Understood M files c src) (hP : c.planner = some P)
    (hp : cmdPlan M files = .ok p) (hf : DumpsPlan M.codes.float p file)
    (htg : [] ∉ dkeys P.targets) (hdep : P.includeDependencies = true) (hign : P.ignoreFks = [])
    (hcirc : ∀ k, Named P.passthrough k → ¬ Relation.TransGen (DbRef (M.schema src)) k k)
    (hX : c.sampler = some X) (hrows : KeepsRows X) (hout : X.output = .database db remap strategy false)
    (hdst : databaseEngine M.int M.env (some (str! "SUBSET_DESTINATION_")) db = .ok dst)
    (hD : SourceDb (M.setting src (some dst))) (hd : DestinationDb (M.setting src (some dst)))
    (hdia : (M.setting src (some dst)).dialect ≠ .generic ∨ strategy = .error) (hsrc : SourceOK (M.setting src (some dst)))
    (hfree : DestinationFree { remap := renamed M.sub remap } (M.setting src (some dst)) p S) :
    ∃ R R', cmdSubset M files truncate true S F s = .ok (.database R) ∧
      cmdSample M files file truncate true S F s' = .ok (.database R') ∧
      exitStatus (cmdSubset M files truncate true S F s) = 0 ∧
      exitStatus (cmdSample M files file truncate true S F s') = 0 ∧ R'.final = R.final := by
  have hex := (c71_planner (c71_config.2 hu.config) hP).1
  have hp := plan_eq hu hP hp
  have hok := run_ok (C := { infer := X.infer, filters := X.filters, compact := X.compact, mult := X.mult, remap := renamed M.sub remap, strategy := strategy, merge := false, truncate := truncate, create := true }) hD hd hex htg
    hrows.compactColumns hp
  have hp' := hp
  rw [← M.setting_schema src (some dst), ← M.setting_fnmatch src (some dst)] at hp'
  rw [← M.setting_schema src (some dst)] at hcirc
  obtain ⟨p', hl, -⟩ := c49_round_trip hf
  have hsam : cmdSample M files file truncate true S F s' = cmdRun M src c.sampler truncate true p' S F s' := by
    unfold cmdSample sourceEngine
    rw [c71_config.2 hu.config]
    dsimp only
    rw [hl]
    dsimp only
    rw [hu.source]
  have hmp : mainPlan (M.setting src (some dst)).fnmatch (M.setting src (some dst)).srcDb (some P) = .ok p := by
    unfold mainPlan
    dsimp only
    rw [hp']
  obtain ⟨R, R', h1, h2, h3, h4, h5⟩ := c65_two_commands_create (S := S) (s := s) (s' := s') hex htg hmp hf hok
    (keepsRows_plain hrows rfl rfl rfl rfl) rfl hdia hdep hign hcirc
    (fun n hn => by rw [M.setting_fnmatch]; exact (plan_names hD hex htg hp').2 n hn) hsrc
    ⟨hfree.dest, hfree.differ, hfree.free, hfree.circles⟩
  unfold mainSubset runSampler at h1
  dsimp only at h1
  rw [hp'] at h1
  dsimp only at h1
  unfold mainSample runSampler at h2
  rw [hl] at h2
  dsimp only at h2
  rw [hsam, subset_eq hu hP hp, run_database hX hout hdst, run_database hX hout hdst, Except.ok.inj h1, Except.ok.inj h2]
  exact ⟨R, R', rfl, rfl, h3, h4, h5⟩

/-- C73. Documents that are not a configuration: every command exits with 1 and no plan is made. -/
theorem c73_refused {file : Yaml} (h : ¬ ∃ c, IsConfig M.lax M.codes c (mergeFiles files)) :
    (∀ p, cmdPlan M files ≠ .ok p) ∧ exitStatus (cmdSample M files file truncate create S F s) = 1 ∧
      exitStatus (cmdSubset M files truncate create S F s) = 1 := by
  cases e : getConfig M.lax M.codes files with
  | ok c => exact absurd ⟨c, c71_config.1 e⟩ h
  | error e' =>
    unfold cmdPlan cmdSample cmdSubset
    rw [e]
    exact ⟨fun p hp => (nomatch hp), rfl, rfl⟩

/-- C73. If `subset` exits with 0, the documents were a configuration with both sections, a plan was made of the source,
and the run to the output named there ended without an error; the run is described by C58, C61 and C66. -/
theorem c73_done (h : exitStatus (cmdSubset M files truncate create S F s) = 0) :
    ∃ c P X src p, Understood M files c src ∧ c.planner = some P ∧ c.sampler = some X ∧
      plan fnmatch (M.schema src) P = .ok p ∧
      ((∃ dir F', X.output = .directory dir ∧ cmdSubset M files truncate create S F s = .ok (.directory F' none) ∧
        sampleDirectory { infer := X.infer, filters := X.filters, compact := X.compact, mult := X.mult, remap := id, truncate := truncate, create := create } (M.setting src none) p F s = (F', none)) ∨
      ∃ db remap strategy merge dst R, X.output = .database db remap strategy merge ∧
        databaseEngine M.int M.env (some (str! "SUBSET_DESTINATION_")) db = .ok dst ∧
        cmdSubset M files truncate create S F s = .ok (.database R) ∧ R.err = none ∧
        R = sample { infer := X.infer, filters := X.filters, compact := X.compact, mult := X.mult, remap := renamed M.sub remap, strategy := strategy, merge := merge, truncate := truncate, create := create } (M.setting src (some dst)) p S s) := by
  cases e1 : getConfig M.lax M.codes files with
  | error e => unfold cmdSubset at h; rw [e1] at h; cases h
  | ok c =>
  cases e2 : c.planner with
  | none => unfold cmdSubset at h; rw [e1] at h; dsimp only at h; rw [e2] at h; cases h
  | some P =>
  cases e3 : databaseEngine M.int M.env (some (str! "SUBSET_SOURCE_")) c.source with
  | error e => unfold cmdSubset sourceEngine at h; rw [e1] at h; dsimp only at h; rw [e2] at h; dsimp only at h; rw [e3] at h; cases h
  | ok src =>
  have hu : Understood M files c src := ⟨c71_config.1 e1, e3⟩
  cases e4 : plan fnmatch (M.schema src) P with
  | error e => unfold cmdSubset sourceEngine at h; rw [e1] at h; dsimp only at h; rw [e2] at h; dsimp only at h; rw [e3] at h; dsimp only at h; rw [e4] at h; cases h
  | ok p =>
  rw [subset_eq hu e2 e4] at h ⊢
  cases e5 : c.sampler with
  | none => unfold cmdRun at h; rw [e5] at h; cases h
  | some X =>
  refine ⟨c, P, X, src, p, hu, e2, e5, e4, ?_⟩
  cases e6 : X.output with
  | directory dir =>
    have hC : runConfig M.sub X truncate create = { infer := X.infer, filters := X.filters, compact := X.compact, mult := X.mult, remap := id, truncate := truncate, create := create } := by
      unfold runConfig
      rw [e6]
    left
    unfold cmdRun at h ⊢
    rw [e5] at h
    dsimp only at h ⊢
    rw [e6] at h ⊢
    dsimp only at h ⊢
    rw [hC] at h ⊢
    generalize sampleDirectory _ _ _ _ _ = r at h ⊢
    obtain ⟨F', e⟩ := r
    cases e with
    | some e => cases h
    | none => exact ⟨dir, F', rfl, rfl, rfl⟩
  | database db remap strategy merge =>
    right
    cases e7 : databaseEngine M.int M.env (some (str! "SUBSET_DESTINATION_")) db with
    | error e =>
      unfold cmdRun at h
      rw [e5] at h
      dsimp only at h
      rw [e6] at h
      dsimp only at h
      rw [e7] at h
      cases h
    | ok dst =>
      have hr := run_database (src := src) (truncate := truncate) (create := create) (p := p) (S := S) (F := F) (s := s) e5 e6 e7
      rw [hr] at h
      rw [e5] at hr
      rw [hr]
      refine ⟨db, remap, strategy, merge, dst, _, rfl, e7, rfl, ?_, rfl⟩
      unfold exitStatus at h
      dsimp only at h
      split at h
      · cases h
      · rename_i hn
        simpa using hn

/-! ### Example -/

/-- The planner's part: orders of user 1, users passed through. -/
def zxPlanner : Yaml := .map [
  (str! "source", .map [(str! "dialect", gxStr (str! "sqlite")), (str! "database", gxStr (str! "a.db"))]),
  (str! "planner", .map [
    (str! "select", .seq [gxStr (str! "s.o")]),
    (str! "passthrough", .seq [gxStr (str! "s.u")]),
    (str! "targets", .map [(str! "s.o", .map [(str! "in", .map [(str! "uid", .seq [.leaf (.int 1)])])])])])]

/-- A file with an output to a database. -/
def zxDatabase : Yaml := .map [(str! "sampler", .map [(str! "output", .map [(str! "mode", gxStr (str! "database")),
  (str! "dialect", gxStr (str! "sqlite")), (str! "database", gxStr (str! "b.db")),
  (str! "remap", .seq [.map [(str! "search", gxStr (str! "^s")), (str! "replace", gxStr (str! "m"))]])])])]

/-- A file with an output to a directory. -/
def zxDirectory : Yaml := .map [(str! "sampler", .map [])]

def zxDb (name : Str) : DbConfig := { dialect := some .sqlite, host := none, port := none, database := some name, username := none, password := none, sessionSqls := [], sqliteDatabases := [], isolation := none, ssl := noSsl }

def zxSampler (output : OutputConfig) : SamplerConfig := { output := output, filters := [], mult := {}, infer := .none, compact := {} }

def zxConfig (output : OutputConfig) : Config := { source := zxDb (str! "a.db"), planner := some axCfg, sampler := some (zxSampler output) }

def zxOut : OutputConfig := .database (zxDb (str! "b.db")) [(str! "^s", str! "m")] .error false

def zxMachine (L : Lax) (K : Codes) : Machine Int where
  lax := L
  codes := K
  int := fun _ => some 0
  env := []
  sub := fun _ _ n => dxRemap n
  schema := fun _ => (rxSetting []).srcDb
  setting := fun _ _ => axSetting fnmatch
  setting_schema := fun _ _ => rfl
  setting_fnmatch := fun _ _ => rfl

theorem zx_understood (L : Lax) (K : Codes) : ∃ src dst,
    Understood (zxMachine L K) [zxPlanner, zxDatabase] (zxConfig zxOut) src ∧
    Understood (zxMachine L K) [zxPlanner, zxDirectory] (zxConfig (.directory (str! "output"))) src ∧
    databaseEngine (zxMachine L K).int (zxMachine L K).env (some (str! "SUBSET_DESTINATION_")) (zxDb (str! "b.db")) = .ok dst :=
  ⟨_, _, ⟨c71_config.1 rfl, rfl⟩, ⟨c71_config.1 rfl, rfl⟩, rfl⟩

theorem zx_plan : ∃ p, plan fnmatch (rxSetting []).srcDb axCfg = .ok p ∧ dkeys p.queries = [str! "s.u", str! "s.o"] := by
  have hn := nxNames
  cases h : plan fnmatch (rxSetting []).srcDb axCfg with
  | error e => rw [h] at hn; cases hn
  | ok p => rw [h] at hn; exact ⟨p, rfl, hn⟩

theorem zx_rows (o : OutputConfig) : KeepsRows (zxSampler o) :=
  ⟨⟨⟨rfl, rfl⟩, rfl, le_refl _⟩, fun _ _ h => (nomatch h)⟩

theorem zx_source : SourceDb (axSetting fnmatch) := by
  have hok := rx_ok (C := { remap := dxRemap }) rfl
  refine ⟨hok.src, hok.srcColumns, fun n hn a b e hb => ?_⟩
  have : ∀ n ∈ dkeys (rxSetting []).srcDb, ']' ∉ n := by decide
  exact this n hn (by rw [e]; simp [hb])

theorem zx_dest : DestinationDb (axSetting fnmatch) :=
  ⟨⟨.nil, (fun _ _ h => nomatch h), (fun _ _ h => nomatch h), (fun _ _ h => nomatch h), (fun _ _ h => nomatch h)⟩,
    fun _ _ h => (ax_noref h).elim, fun _ h => (nomatch h)⟩

/-- C73 on the example: the two files, the empty database and the directory meet all conditions. -/
theorem zx_subset (L : Lax) (K : Codes) (F : Files) (s : Int) :
    exitStatus (cmdSubset (zxMachine L K) [zxPlanner, zxDatabase] false true (fun _ => []) F s) = 0 ∧
    exitStatus (cmdSubset (zxMachine L K) [zxPlanner, zxDirectory] false false (fun _ => []) F s) = 0 ∧
    ∃ R, cmdSubset (zxMachine L K) [zxPlanner, zxDatabase] false true (fun _ => []) F s = .ok (.database R) ∧
      ∀ B ∈ R.hist, Intact R.schema B := by
  obtain ⟨src, dst, hu, hu', hd⟩ := zx_understood L K
  obtain ⟨p, hp, hn⟩ := zx_plan
  have hfree : DestinationFree { remap := renamed (zxMachine L K).sub [(str! "^s", str! "m")] } (axSetting fnmatch) p (fun _ => []) :=
    ax_free rfl hn
  refine ⟨?_, ?_, ?_⟩
  · obtain ⟨_, _, -, h, -⟩ := c73_subset (F := F) (s := s) (truncate := false) hu rfl hp (by decide) (by decide) rfl
      (fun _ hk => ax_nocircle (f := fnmatch) hk) rfl (zx_rows _) rfl hd zx_source zx_dest (.inr rfl) ax_source hfree
    exact h
  · obtain ⟨_, _, -, h, -⟩ := c73_directory (F := F) (s := s) (S := fun _ => []) (truncate := false) (create := false) hu' rfl hp
      (by decide) rfl (zx_rows _) rfl zx_source
    exact h
  · refine c73_intact_partial (F := F) (s := s) (truncate := false) hu rfl hp (by decide) rfl ?_ rfl (zx_rows _).toKeepsIds rfl hd
      zx_source zx_dest ax_source.pk ?_ ?_ (fun _ _ h => (nomatch h)) (.inl rfl) hfree ?_ (fun _ _ => rfl)
    · intro n y hy
      have := dget_some_mem hy
      simp only [axCfg, exCfg, List.mem_cons, Prod.mk.injEq, List.not_mem_nil, or_false] at this
      obtain ⟨-, rfl⟩ := this
      intro h; cases h
    · rintro a fk b ⟨n, t, h1, rfl, h2, rfl⟩
      simp only [zxMachine, rxSetting, List.mem_cons, Prod.mk.injEq, List.not_mem_nil, or_false] at h1
      rcases h1 with ⟨-, rfl⟩ | ⟨-, rfl⟩
      · simp only [rxO, List.mem_cons, List.not_mem_nil, or_false] at h2
        subst h2
        have : ∀ r ∈ exSrc (str! "s", str! "o"), Resolves ⟨[str! "uid"], str! "s", str! "u", [str! "id"]⟩ r (exSrc (str! "s", str! "u")) := by
          unfold Resolves Refers
          decide +kernel
        exact this
      · cases h2
    · intro n t h fk hfk
      have h1 : ∀ e ∈ (rxSetting []).srcDb, ∀ fk ∈ e.2.foreignKeys, ∀ c ∈ fk.columns, c ∈ e.2.columns := by decide
      exact ⟨h1 (n, t) h fk hfk, ax_source.fkColumns n t h fk hfk⟩
    · rintro a fk b ⟨n, t, h, -⟩
      cases h

/-- `plan` makes a plan that can be written, and `sample` with the file leaves the same as `subset`. -/
theorem zx_two (L : Lax) (K : Codes) (F : Files) (s s' : Int) : ∃ p file, cmdPlan (zxMachine L K) [zxPlanner, zxDatabase] = .ok p ∧
    DumpsPlan K.float p file ∧ ∃ R R',
      cmdSubset (zxMachine L K) [zxPlanner, zxDatabase] false true (fun _ => []) F s = .ok (.database R) ∧
      cmdSample (zxMachine L K) [zxPlanner, zxDatabase] file false true (fun _ => []) F s' = .ok (.database R') ∧
      R'.final = R.final := by
  obtain ⟨src, dst, hu, -, hd⟩ := zx_understood L K
  obtain ⟨p, hp, hn⟩ := zx_plan
  have hfree : DestinationFree { remap := renamed (zxMachine L K).sub [(str! "^s", str! "m")] } (axSetting fnmatch) p (fun _ => []) :=
    ax_free rfl hn
  have hc : cmdPlan (zxMachine L K) [zxPlanner, zxDatabase] = .ok p := by
    unfold cmdPlan sourceEngine
    rw [c71_config.2 hu.config]
    dsimp only
    rw [show (zxConfig zxOut).planner = some axCfg from rfl]
    dsimp only
    rw [hu.source]
    dsimp only
    rw [show plan fnmatch ((zxMachine L K).schema src) axCfg = .ok p from hp]
  obtain ⟨file, hf⟩ := (c71_plan (K := K) (c71_config.2 hu.config) rfl zx_source.ok (by decide) hp).1
  obtain ⟨R, R', h1, h2, -, -, h3⟩ := c73_two_commands (F := F) (s := s) (s' := s') (truncate := false) hu rfl hc hf (by decide)
    (by decide) rfl (fun _ hk => ax_nocircle (f := fnmatch) hk) rfl (zx_rows _) rfl hd zx_source zx_dest (.inr rfl) ax_source hfree
  exact ⟨p, file, hc, hf, R, R', h1, h2, h3⟩

/-- A misspelt key stops every command. -/
example (L : Lax) (K : Codes) (F : Files) (s : Int) :
    exitStatus (cmdSubset (zxMachine L K) [zxPlanner, zxDatabase, gxMisspelt] false true (fun _ => []) F s) = 1 := by
  refine (c73_refused (file := zxPlanner) ?_).2.2
  rintro ⟨c, hc⟩
  exact c71_misspelt_partial (files := [zxPlanner, zxDatabase, gxMisspelt]) (k := str! "precent")
    (.target (t := str! "s.users") rfl (List.mem_cons_of_mem _ List.mem_cons_self)) (by decide) (by decide) ⟨c, c71_config.2 hc⟩

end Subsetter.Props
