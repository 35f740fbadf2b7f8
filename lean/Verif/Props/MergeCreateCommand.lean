import Verif.Spec.MergeCreateCommand
import Verif.Props.MergeCommand
import Verif.Props.MergeCreate

/-
Property C93, continued: building up a database with the command `subset --create`.
-/
namespace Subsetter.Props
open Subsetter Spec

variable {σ : Type} {W : Route} {M : Machine σ} {files : List Yaml} {c : Config} {P : PlannerConfig} {X : SamplerConfig}
  {src dst : EngineArgs} {dc : DbConfig} {remap : List (Str × Str)} {p : Plan} {B : Database} {F : Files} {s : σ}

/-- The documents are a configuration that merges rows on route `W`, and the source is as needed for that. -/
structure GrowFiles (W : Route) (M : Machine σ) (files : List Yaml) (c : Config) (P : PlannerConfig) (X : SamplerConfig)
    (src dst : EngineArgs) (dc : DbConfig) (remap : List (Str × Str)) (p : Plan) : Prop where
  understood : Understood M files c src
  planner : c.planner = some P
  plan : plan fnmatch (M.schema src) P = .ok p
  targets : [] ∉ dkeys P.targets
  ignored : P.ignoreFks = []
  dependencies : P.includeDependencies = true ∨ P.ignore = []
  all : ∀ n y, dget P.targets n = some y → y.all = true → y.amount = none
  sampler : c.sampler = some X
  filters : ∀ n fs, (n, fs) ∈ X.filters → fs = []
  compactColumns : X.compact.columns = []
  once : X.mult.multiplier ≤ 1
  infer : X.infer = .none
  startKey : 0 ≤ X.compact.startKey
  output : X.output = .database dc remap .error true
  destination : databaseEngine M.int M.env (some (str! "SUBSET_DESTINATION_")) dc = .ok dst
  schema : M.schema src = W.srcDb
  fnmatch : W.fnmatch = fnmatch
  computed : (M.setting src (some dst)).computed = W.computed
  dialect : (M.setting src (some dst)).dialect = W.dialect
  remap : renamed M.sub remap = W.remap
  tables : ∀ n ∈ dkeys p.queries, n ∈ W.tables
  passed : ∀ n ∈ p.passthrough, n ∈ W.passed
  compactKeys : Compacts { remap := W.remap, compact := X.compact } → ∀ n t c, (n, t) ∈ W.srcDb →
    Selected W.fnmatch W.srcDb (dkeys p.queries) (t.schema, t.name) → t.primaryKey = [c] → c ∈ t.intColumns →
    n ∉ p.passthrough → ∀ fk ∈ t.foreignKeys, c ∉ fk.columns
  compactPairs : Compacts { remap := W.remap, compact := X.compact } → (M.setting src (some dst)).reopen = false →
    ∀ n ∈ dkeys p.queries, ∀ t, (n, t) ∈ W.srcDb → ∀ fk ∈ t.foreignKeys, fk.columns.Nodup ∧ fk.dstColumns.Nodup
  keys : PkOK (dbTables W.srcDb) (M.setting src (some dst)).src
  intact : Intact W.srcDb (M.setting src (some dst)).src
  columns : ∀ n t, (n, t) ∈ W.srcDb → ∀ fk ∈ t.foreignKeys, (∀ c ∈ fk.columns, c ∈ t.columns) ∧
    ∀ tb, (fk.dstSchema ++ '.' :: fk.dstTable, tb) ∈ W.srcDb → ∀ c ∈ fk.dstColumns, c ∈ tb.columns
  mergeKeys : MergeKeys (M.setting src (some dst)) p
  auto : W.dialect = .postgresql → ∀ n ∈ p.passthrough, ∀ k t, parseTableName n = some k → (n, t) ∈ W.srcDb →
    ∀ c ∈ t.primaryKey, c ∈ t.intColumns → ∀ r ∈ (M.setting src (some dst)).src k, ∃ v : Int, r.get c = .int v

/-- The run such documents lead to. -/
def growJob (M : Machine σ) (P : PlannerConfig) (X : SamplerConfig) (src dst : EngineArgs) (remap : List (Str × Str)) (p : Plan) (s : σ) : Job σ :=
  ⟨{ infer := X.infer, filters := X.filters, compact := X.compact, mult := X.mult, remap := renamed M.sub remap, strategy := .error, merge := true, truncate := false, create := true }, M.setting src (some dst), p, P, s⟩

theorem GrowFiles.run (h : GrowFiles W M files c P X src dst dc remap p) : GrowRun W (growJob M P X src dst remap p s) ∧
    cmdSubset (withTables M B.tables) files false true B.rows F s = .ok (.database ((growJob M P X src dst remap p s).result B)) := by
  have hex := (c71_planner (c71_config.2 h.understood.config) h.planner).1
  have hu : Understood (withTables M B.tables) files c src := ⟨h.understood.config, h.understood.source⟩
  refine ⟨⟨?_, ?_, h.computed, h.dialect, h.remap, h.tables, h.passed, ⟨h.filters, ?_, h.startKey, h.once, h.infer, rfl, rfl, rfl⟩, ?_, rfl,
    h.compactKeys, h.compactPairs, hex, h.targets, ?_, h.ignored, h.dependencies, h.all, h.keys, h.intact, h.columns, h.mergeKeys, h.auto⟩, ?_⟩
  · exact (M.setting_schema _ _).trans h.schema
  · exact (M.setting_fnmatch _ _).trans h.fnmatch.symm
  · dsimp only [growJob]
    rw [h.compactColumns]
    exact fun _ _ h => (nomatch h)
  · dsimp only [growJob]
    rw [h.compactColumns]
    exact .nil
  · rw [← h.schema, h.fnmatch]; exact h.plan
  · rw [subset_eq hu h.planner h.plan, run_database (M := withTables M B.tables) (dst := dst) h.sampler h.output h.destination]
    rfl

/-- C93. `subset --create` with such a configuration exits with 0, whichever of the tables are there: foreign keys of all
tables hold after every commit, tables and rows remain, and the database can receive further samples. -/
theorem c93_command (hW : RouteOK W) (h : GrowFiles W M files c P X src dst dc remap p) (hB : Ready W B.tables)
    (hS : Sound B.tables W.computed B.rows) :
    ∃ R, cmdSubset (withTables M B.tables) files false true B.rows F s = .ok (.database R) ∧
      exitStatus (cmdSubset (withTables M B.tables) files false true B.rows F s) = 0 ∧
      (∀ Y ∈ R.hist, Intact R.schema Y) ∧ Ready W R.schema ∧ Sound R.schema W.computed R.final ∧
      (∀ e ∈ B.tables, e ∈ R.schema) ∧ (∀ k, ∃ new, R.final k = B.rows k ++ new) ∧
      ∀ n ∈ dkeys p.queries, ∃ t kd td, (n, t) ∈ W.srcDb ∧ DestOf W.remap n kd ∧ (kd.1 ++ '.' :: kd.2, td) ∈ R.schema ∧ TwinOf W.remap t td := by
  obtain ⟨hj, he⟩ := h.run (B := B) (F := F) (s := s)
  obtain ⟨g1, -, g2⟩ := c93_tables hW hj hB
  obtain ⟨g3, g4, g5⟩ := c93_ready hW hj hB hS
  obtain ⟨g6, -⟩ := c93_repeated (js := [growJob M P X src dst remap p s]) hW (fun j hj' => by rw [List.mem_singleton.1 hj']; exact hj) hB hS
  obtain ⟨g7, g8⟩ := g6 [] _ [] rfl
  refine ⟨_, he, ?_, g8, g3, g4, g1, g5, g2⟩
  rw [he]
  unfold exitStatus
  dsimp only
  rw [show ((growJob M P X src dst remap p s).result B).err = none from g7]
  rfl

/-- C93. What the command adds without compaction. -/
theorem c93_command_rows (hW : RouteOK W) (h : GrowFiles W M files c P X src dst dc remap p) (hno : ¬ Compacts { remap := W.remap, compact := X.compact })
    (hB : Ready W B.tables) (hS : Sound B.tables W.computed B.rows) :
    ∃ R, cmdSubset (withTables M B.tables) files false true B.rows F s = .ok (.database R) ∧
      (∀ k, (∀ n ∈ dkeys p.queries, ¬ DestOf W.remap n k) → R.final k = B.rows k) ∧
      ∃ Smp off, IsSample (M.setting src (some dst)).engine (dbTables W.srcDb) (M.setting src (some dst)).src p Smp ∧
        ∀ n ∈ dkeys p.queries, ∀ k t kd, parseTableName n = some k → (n, t) ∈ W.srcDb → DestOf W.remap n kd →
          ∃ new, R.final kd = B.rows kd ++ new ∧
            (n ∉ p.passthrough → (∀ c ∈ t.primaryKey, IsOffset (B.rows kd) c (off n)) ∧
              List.Forall₂ (MovedRow p off n t) (Smp k) new) ∧
            (n ∈ p.passthrough → t.primaryKey ≠ [] → ∀ r ∈ Smp k, ∃ r' ∈ B.rows kd ++ new, ∀ c ∈ t.primaryKey, r'.get c = r.get c) := by
  obtain ⟨hj, he⟩ := h.run (B := B) (F := F) (s := s)
  obtain ⟨-, -, h1, h2⟩ := c93_merge hW hj hno hB hS
  exact ⟨_, he, h1, h2⟩

/-- C93. Any number of such calls can be made one after the other, starting without tables. -/
theorem c93_calls (hW : RouteOK W) : ∀ {is : List (Call σ)} {B : Database}, Ready W B.tables → Sound B.tables W.computed B.rows →
    (∀ i ∈ is, ∃ c P X src dst dc remap p, GrowFiles W i.machine i.files c P X src dst dc remap p) →
    (∀ pre i post, is = pre ++ i :: post → exitStatus (i.create (createdBy pre B)) = 0 ∧
      ∃ R, i.create (createdBy pre B) = .ok (.database R) ∧ ∀ Y ∈ R.hist, Intact R.schema Y) ∧
    Ready W (createdBy is B).tables ∧ Sound (createdBy is B).tables W.computed (createdBy is B).rows ∧
    (∀ e ∈ B.tables, e ∈ (createdBy is B).tables) ∧ ∀ k, ∃ new, (createdBy is B).rows k = B.rows k ++ new := by
  intro is
  induction is with
  | nil =>
    intro B hB hS _
    refine ⟨fun pre i post h => ?_, hB, hS, fun _ h => h, fun k => ⟨[], (List.append_nil _).symm⟩⟩
    cases pre <;> cases h
  | cons i is ih =>
    intro B hB hS hi
    obtain ⟨c, P, X, src, dst, dc, remap, p, hm⟩ := hi i (List.mem_cons_self ..)
    obtain ⟨R, h1, h2, h3, h4, h5, h6, h7, -⟩ := c93_command (F := fun _ => none) (s := i.start) hW hm hB hS
    have he : i.created B = ⟨R.schema, R.final⟩ := by
      unfold Call.created Call.create
      rw [h1]
    obtain ⟨g1, g2, g3, g4, g5⟩ := ih (B := i.created B) (by rw [he]; exact h4) (by rw [he]; exact h5) fun j hj => hi j (List.mem_cons_of_mem _ hj)
    refine ⟨fun pre j post h => ?_, g2, g3, fun e hm => g4 e (by rw [he]; exact h6 e hm), fun k => ?_⟩
    · cases pre with
      | nil =>
        injection h with h _
        subst h
        exact ⟨h2, R, h1, h3⟩
      | cons a pre =>
        injection h with h h'
        subst h
        exact g1 pre j post h'
    · obtain ⟨a, ha⟩ := h7 k
      obtain ⟨b, hb⟩ := g5 k
      refine ⟨a ++ b, ?_⟩
      unfold createdBy
      rw [he] at hb ⊢
      exact (hb.trans (congrArg (· ++ b) ha)).trans (List.append_assoc ..)

/-! ### Example: the files of C91 -/

/-- The files of the example meet the conditions. -/
theorem mc_files (L : Lax) (K : Codes) : ∃ src dst p, GrowFiles { mcRoute with fnmatch := fnmatch } (miMachine L K) [miPlannerFile, miSamplerFile]
    { source := zxDb (str! "a.db"), planner := some miCfg, sampler := some miSampler } miCfg miSampler src dst (zxDb (str! "b.db")) [(str! "^s", str! "m")] p := by
  obtain ⟨src, dst, p, h⟩ := mi_files L K
  have hno : ¬ Compacts { remap := dxRemap, compact := miSampler.compact } := by
    rintro (h | h | ⟨_, _, _, h, -⟩) <;> cases h
  have hn : dkeys p.queries = [str! "s.g", str! "s.o", str! "s.u"] := by
    have := miNamesF
    rw [show plan fnmatch miSrcDb miCfg = .ok p from h.plan] at this
    exact this
  have hp : p.passthrough = [str! "s.g"] := by
    have := miPassF
    rw [show plan fnmatch miSrcDb miCfg = .ok p from h.plan] at this
    exact this
  exact ⟨src, dst, p, h.understood, rfl, h.plan, h.targets, rfl, .inl rfl, h.all, rfl, h.rows.filters, rfl, by decide, rfl, by decide, rfl,
    h.destination, rfl, rfl, rfl, rfl, rfl, fun n hm => by rw [hn] at hm; exact hm, fun n hm => by rw [hp] at hm; exact hm,
    fun h => absurd h hno, fun h => absurd h hno, h.keys, h.intact, h.columns, h.mergeKeys, fun h => (nomatch h)⟩

/-- C93 on the example: however often `subset --create` is called, starting without tables. -/
theorem mc_calls (L : Lax) (K : Codes) (i : Nat) (s : Int) :
    Sound (createdBy (List.replicate i ⟨miMachine L K, [miPlannerFile, miSamplerFile], s⟩) noTables).tables (fun _ => [])
      (createdBy (List.replicate i ⟨miMachine L K, [miPlannerFile, miSamplerFile], s⟩) noTables).rows := by
  have hset : ∀ n ∈ dkeys miSrcDb ++ dkeys miDst, NoSet n := by
    intro n hn a b e hb
    have : ∀ n ∈ dkeys miSrcDb ++ dkeys miDst, ']' ∉ n := by decide
    exact this n hn (by rw [e]; simp [hb])
  have hm := mc_route
  have hs : ∀ n ∈ mcRoute.tables, n ∈ dkeys miSrcDb ++ dkeys miDst := by decide
  have hW : RouteOK { mcRoute with fnmatch := fnmatch } :=
    ⟨hm.source, hm.columns, fun n hn => by
        have : ∀ n ∈ mcRoute.tables, str! "m" ++ '.' :: n.drop 2 ∈ dkeys miSrcDb ++ dkeys miDst := by decide
        exact ⟨_, mc_dest n hn, rfl, c67_self (hset _ (this n hn))⟩, hm.differ, fun n hn => c67_self (hset n (hs n hn)), hm.circles, hm.refs, hm.passed, hm.dialect⟩
  obtain ⟨src, dst, p, h⟩ := mc_files L K
  have h0 := c93_nothing_ready { mcRoute with fnmatch := fnmatch }
  refine (c93_calls hW h0.1 h0.2 fun j hj => ?_).2.2.1
  rw [List.eq_of_mem_replicate hj]
  exact ⟨_, _, _, _, _, _, _, _, h⟩

end Subsetter.Props
