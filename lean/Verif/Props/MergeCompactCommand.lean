import Verif.Props.MergeCommand
import Verif.Props.MergeCompact

/-
Property C92, continued: merging with compacted keys by the command `subset`.
-/
namespace Subsetter.Props
open Subsetter Spec

variable {σ : Type} {M : Machine σ} {files : List Yaml} {c : Config} {P : PlannerConfig} {X : SamplerConfig}
  {src dst : EngineArgs} {dc : DbConfig} {remap : List (Str × Str)} {p : Plan} {S : DbState} {F : Files} {s : σ}

/-- The documents are a configuration that merges rows with compacted primary keys into a database, and the two databases
are as needed for that. -/
structure CompactMergeFiles (M : Machine σ) (files : List Yaml) (c : Config) (P : PlannerConfig) (X : SamplerConfig)
    (src dst : EngineArgs) (dc : DbConfig) (remap : List (Str × Str)) (p : Plan) : Prop where
  understood : Understood M files c src
  planner : c.planner = some P
  plan : plan fnmatch (M.schema src) P = .ok p
  targets : [] ∉ dkeys P.targets
  ignored : P.ignoreFks = []
  dependencies : P.includeDependencies = true ∨ P.ignore = []
  all : ∀ n y, dget P.targets n = some y → y.all = true → y.amount = none
  sampler : c.sampler = some X
  filters : ∀ n fs, (n, fs) ∈ X.filters → fs = []
  compactColumns : X.compact.columns = []
  once : X.mult.multiplier ≤ 1
  infer : X.infer = .none
  primaryKeys : X.compact.primaryKeys = true
  startKey : 0 ≤ X.compact.startKey
  output : X.output = .database dc remap .error true
  destination : databaseEngine M.int M.env (some (str! "SUBSET_DESTINATION_")) dc = .ok dst
  source : SourceDb (M.setting src (some dst))
  dest : DestinationDb (M.setting src (some dst))
  keys : PkOK (dbTables (M.schema src)) (M.setting src (some dst)).src
  intact : Intact (M.schema src) (M.setting src (some dst)).src
  columns : FkColumnsOK (M.setting src (some dst))
  twins : Twins { remap := renamed M.sub remap } (M.setting src (some dst)) p
  mergeKeys : MergeKeys (M.setting src (some dst)) p
  compact : CompactSound { remap := renamed M.sub remap } (M.setting src (some dst)) p

/-- The run such documents lead to. -/
theorem CompactMergeFiles.run (h : CompactMergeFiles M files c P X src dst dc remap p) :
    CompactMergeRun { infer := X.infer, filters := X.filters, compact := X.compact, mult := X.mult, remap := renamed M.sub remap, strategy := .error, merge := true, truncate := false, create := false } (M.setting src (some dst)) p P ∧
    cmdSubset M files false false S F s = .ok (.database (sample
      { infer := X.infer, filters := X.filters, compact := X.compact, mult := X.mult, remap := renamed M.sub remap, strategy := .error, merge := true, truncate := false, create := false } (M.setting src (some dst)) p S s)) := by
  have hex := (c71_planner (c71_config.2 h.understood.config) h.planner).1
  refine ⟨⟨run_ok h.source h.dest hex h.targets h.compactColumns h.plan,
    ⟨h.filters, ?_, h.startKey, h.once, h.infer, rfl, rfl, rfl⟩, rfl, h.primaryKeys, ⟨h.compact.keys, h.compact.pairs, h.compact.auto⟩,
    hex, h.targets, ?_, h.ignored, h.dependencies, h.all, ?_, ?_, h.columns,
    ⟨h.twins.tables, h.twins.differ, h.twins.circles, h.twins.self, h.twins.stable, h.twins.dialect, h.twins.auto⟩, h.mergeKeys⟩, ?_⟩
  · dsimp only
    rw [h.compactColumns]
    exact fun _ _ h => (nomatch h)
  · rw [M.setting_schema, M.setting_fnmatch]; exact h.plan
  · rw [M.setting_schema]; exact h.keys
  · rw [M.setting_schema]; exact h.intact
  · rw [subset_eq h.understood h.planner h.plan, run_database h.sampler h.output h.destination]

/-- C92. `subset` with such a configuration exits with 0, foreign keys hold after every commit, no row of the destination is
changed or removed, and sampled rows are appended with new identifiers, consecutive for each table, and references to
them. -/
theorem c92_command (h : CompactMergeFiles M files c P X src dst dc remap p)
    (hS : Sound (M.setting src (some dst)).dstDb (M.setting src (some dst)).computed S) :
    ∃ R, cmdSubset M files false false S F s = .ok (.database R) ∧
      exitStatus (cmdSubset M files false false S F s) = 0 ∧
      (∀ B ∈ R.hist, Intact (M.setting src (some dst)).dstDb B) ∧
      Sound (M.setting src (some dst)).dstDb (M.setting src (some dst)).computed R.final ∧
      (∀ k, ∃ new, R.final k = S k ++ new) ∧
      (∀ k, (∀ n ∈ dkeys p.queries, ¬ DestOf (renamed M.sub remap) n k) → R.final k = S k) ∧
      ∃ Smp ids off, IsSample (M.setting src (some dst)).engine (dbTables (M.schema src)) (M.setting src (some dst)).src p Smp ∧
        (∀ k, (ids k).length = (Smp k).length ∧ FillsFrom X.compact.startKey (ids k)) ∧
        ∀ n ∈ dkeys p.queries, ∀ k t kd, parseTableName n = some k → (n, t) ∈ M.schema src → DestOf (renamed M.sub remap) n kd →
          ∃ new, R.final kd = S kd ++ new ∧
            (n ∉ p.passthrough → (∀ c ∈ t.primaryKey, IsOffset (S kd) c (off n)) ∧
              List.Forall₂ (RenumberedRow p Smp ids off n t) ((ids k).zip (Smp k)) new) ∧
            (n ∈ p.passthrough → t.primaryKey ≠ [] → ∀ r ∈ Smp k, ∃ r' ∈ S kd ++ new, ∀ c ∈ t.primaryKey, r'.get c = r.get c) := by
  obtain ⟨hR, he⟩ := h.run (S := S) (F := F) (s := s)
  obtain ⟨h1, h2, h3, Smp, ids, off, h4, h5, h6⟩ := c92_merge (s := s) hR hS
  obtain ⟨h7, h8⟩ := c92_sound (s := s) hR hS
  rw [M.setting_schema] at h4 h6
  refine ⟨_, he, ?_, h2, h7, h8, h3, Smp, ids, off, h4, h5, h6⟩
  rw [he]
  unfold exitStatus
  dsimp only
  rw [h1]
  rfl

/-- Calls are runs. -/
theorem calls_runs {Q : Job σ → Prop} : ∀ {is : List (Call σ)},
    (∀ i ∈ is, ∃ j : Job σ, Q j ∧ ∀ S, i.after S = (sample j.config j.setting j.plan S j.start).final) →
    ∃ js : List (Job σ), js.length = is.length ∧ (∀ j ∈ js, Q j) ∧ ∀ S, afterCalls is S = afterRuns js S := by
  intro is
  induction is with
  | nil => exact fun _ => ⟨[], rfl, fun _ h => (nomatch h), fun _ => rfl⟩
  | cons i is ih =>
    intro h
    obtain ⟨js, h1, h2, h3⟩ := ih fun i hi => h i (List.mem_cons_of_mem _ hi)
    obtain ⟨j, h4, h5⟩ := h i (List.mem_cons_self ..)
    refine ⟨j :: js, by simp [h1], fun j' hj' => ?_, fun S => ?_⟩
    · rcases List.mem_cons.1 hj' with rfl | hj'
      · exact h4
      · exact h2 j' hj'
    · show afterCalls is (i.after S) = afterRuns js _
      rw [h5, h3]

/-- C92. After any number of calls of `subset`, with different files, sources, plans and remappings, the first number past
the largest key of a table has grown by the number of rows added, and by at most `start_key` for every call. -/
theorem c92_calls {db : Dict Str TableMeta} {computed : Key → List Str} {kd : Key} {td : TableMeta} {col : Str} {a : Int}
    (htd : (kd.1 ++ '.' :: kd.2, td) ∈ db) (hc : td.primaryKey = [col]) {is : List (Call σ)} {S : DbState} (hS : Sound db computed S)
    (hi : ∀ i ∈ is, ∃ c P X src dst dc remap p, CompactMergeFiles i.machine i.files c P X src dst dc remap p ∧
      (i.machine.setting src (some dst)).dstDb = db ∧ (i.machine.setting src (some dst)).computed = computed ∧
      X.compact.startKey = a ∧ ∀ n ∈ dkeys p.queries, DestOf (renamed i.machine.sub remap) n kd → n ∉ p.passthrough)
    {o : Int} (ho : IsOffset (S kd) col o) :
    ∃ o' new, IsOffset (afterCalls is S kd) col o' ∧ afterCalls is S kd = S kd ++ new ∧
      o + (new.length : Int) ≤ o' ∧ o' ≤ o + new.length + a * is.length := by
  obtain ⟨js, h1, h2, h3⟩ := calls_runs (Q := fun j : Job σ => CompactMergeRun j.config j.setting j.plan j.planned ∧
      j.setting.dstDb = db ∧ j.setting.computed = computed ∧ j.config.compact.startKey = a ∧
      ∀ n ∈ dkeys j.plan.queries, DestOf j.config.remap n kd → n ∉ j.plan.passthrough) (is := is) fun i him => by
    obtain ⟨c, P, X, src, dst, dc, remap, p, h, g1, g2, g3, g4⟩ := hi i him
    refine ⟨⟨{ infer := X.infer, filters := X.filters, compact := X.compact, mult := X.mult, remap := renamed i.machine.sub remap, strategy := .error, merge := true, truncate := false, create := false }, i.machine.setting src (some dst), p, P, i.start⟩, ⟨(h.run (S := S) (F := fun _ => none) (s := i.start)).1, g1, g2, g3, g4⟩, fun S => ?_⟩
    unfold Call.after Call.run
    rw [(h.run (S := S) (F := fun _ => none) (s := i.start)).2]
  rw [h3, ← h1]
  exact c92_bound htd hc hS h2 ho

/-! ### Example -/

def miCompactFile : Yaml := .map [(str! "sampler", .map [
  (str! "compact", .map [(str! "primary_keys", .leaf (.bool true))]),
  (str! "output", .map [(str! "mode", gxStr (str! "database")),
  (str! "dialect", gxStr (str! "sqlite")), (str! "database", gxStr (str! "b.db")), (str! "merge", .leaf (.bool true)),
  (str! "remap", .seq [.map [(str! "search", gxStr (str! "^s")), (str! "replace", gxStr (str! "m"))]])])])]

def miCompactSampler : SamplerConfig := { miSampler with compact := { primaryKeys := true } }

/-- The files of the example meet the conditions. -/
theorem mi_compact_files (L : Lax) (K : Codes) : ∃ src dst p, CompactMergeFiles (miMachine L K) [miPlannerFile, miCompactFile]
    { source := zxDb (str! "a.db"), planner := some miCfg, sampler := some miCompactSampler } miCfg miCompactSampler src dst (zxDb (str! "b.db")) [(str! "^s", str! "m")] p := by
  have hset : ∀ n ∈ dkeys miSrcDb ++ dkeys miDst, NoSet n := by
    intro n hn a b e hb
    have : ∀ n ∈ dkeys miSrcDb ++ dkeys miDst, ']' ∉ n := by decide
    exact this n hn (by rw [e]; simp [hb])
  have hroot : ∀ e ∈ miSrcDb, ∀ fk ∈ e.2.foreignKeys, str! "id" ∉ fk.columns := by decide
  have hkey : ∀ e ∈ miSrcDb, e.2.primaryKey = [str! "id"] := by decide
  have hnd : ∀ e ∈ miSrcDb, ∀ fk ∈ e.2.foreignKeys, fk.columns.Nodup ∧ fk.dstColumns.Nodup := by decide
  obtain ⟨p, hp, hR⟩ := mi_run_of (fun n hn => c67_self (hset n hn)) miNamesF miPassF
  obtain ⟨src, dst, hu, hd⟩ : ∃ src dst, Understood (miMachine L K) [miPlannerFile, miCompactFile] { source := zxDb (str! "a.db"), planner := some miCfg, sampler := some miCompactSampler } src ∧
    databaseEngine (miMachine L K).int (miMachine L K).env (some (str! "SUBSET_DESTINATION_")) (zxDb (str! "b.db")) = .ok dst :=
    ⟨_, _, ⟨c71_config.1 rfl, rfl⟩, rfl⟩
  have hT := hR.twins
  refine ⟨src, dst, p, hu, rfl, hp, hR.targets, rfl, .inl rfl, hR.all, rfl, fun _ _ h => (nomatch h), rfl, by decide, rfl, rfl, by decide, rfl, hd,
    ⟨hR.ok.src, hR.ok.srcColumns, fun n hn => hset n (List.mem_append_left _ hn)⟩,
    ⟨hR.ok.dst, hR.ok.closed, fun n hn => hset n (List.mem_append_right _ hn)⟩, hR.keys, hR.source, hR.columns,
    ⟨hT.tables, hT.differ, hT.circles, hT.self, hT.stable, hT.dialect, hT.auto⟩, hR.mergeKeys,
    ⟨fun n t c ht _ hc _ _ fk hfk => ?_, fun _ n _ t ht => hnd (n, t) ht, fun h => (nomatch h)⟩⟩
  rw [hkey (n, t) ht] at hc
  cases hc
  exact hroot (n, t) ht fk hfk

end Subsetter.Props
