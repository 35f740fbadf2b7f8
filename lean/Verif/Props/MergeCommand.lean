import Verif.Spec.MergeCommand
import Verif.Props.CommandRefs
import Verif.Props.MergeInto

/-
Property C91, continued: merging with the command `subset`.
-/
namespace Subsetter.Props
open Subsetter Spec

variable {σ : Type} {M : Machine σ} {files : List Yaml} {c : Config} {P : PlannerConfig} {X : SamplerConfig}
  {src dst : EngineArgs} {dc : DbConfig} {remap : List (Str × Str)} {p : Plan} {S : DbState} {F : Files} {s : σ}

/-- The documents are a configuration that merges otherwise untransformed rows into a database, and the two databases
are as needed for that. -/
structure MergeFiles (M : Machine σ) (files : List Yaml) (c : Config) (P : PlannerConfig) (X : SamplerConfig)
    (src dst : EngineArgs) (dc : DbConfig) (remap : List (Str × Str)) (p : Plan) : Prop where
  understood : Understood M files c src
  planner : c.planner = some P
  plan : plan fnmatch (M.schema src) P = .ok p
  targets : [] ∉ dkeys P.targets
  ignored : P.ignoreFks = []
  dependencies : P.includeDependencies = true ∨ P.ignore = []
  all : ∀ n y, dget P.targets n = some y → y.all = true → y.amount = none
  sampler : c.sampler = some X
  rows : KeepsRows X
  infer : X.infer = .none
  startKey : 0 ≤ X.compact.startKey
  output : X.output = .database dc remap .error true
  destination : databaseEngine M.int M.env (some (str! "SUBSET_DESTINATION_")) dc = .ok dst
  source : SourceDb (M.setting src (some dst))
  dest : DestinationDb (M.setting src (some dst))
  keys : PkOK (dbTables (M.schema src)) (M.setting src (some dst)).src
  intact : Intact (M.schema src) (M.setting src (some dst)).src
  columns : FkColumnsOK (M.setting src (some dst))
  twins : Twins { remap := renamed M.sub remap } (M.setting src (some dst)) p
  mergeKeys : MergeKeys (M.setting src (some dst)) p

/-- The run such documents lead to. -/
theorem MergeFiles.run (h : MergeFiles M files c P X src dst dc remap p) :
    MergeRun { infer := X.infer, filters := X.filters, compact := X.compact, mult := X.mult, remap := renamed M.sub remap, strategy := .error, merge := true, truncate := false, create := false } (M.setting src (some dst)) p P ∧
    cmdSubset M files false false S F s = .ok (.database (sample
      { infer := X.infer, filters := X.filters, compact := X.compact, mult := X.mult, remap := renamed M.sub remap, strategy := .error, merge := true, truncate := false, create := false } (M.setting src (some dst)) p S s)) := by
  have hex := (c71_planner (c71_config.2 h.understood.config) h.planner).1
  refine ⟨⟨run_ok h.source h.dest hex h.targets h.rows.compactColumns h.plan,
    ⟨h.rows.filters, h.rows.compactKeys, ?_, h.startKey, h.rows.once, h.infer, rfl, rfl, rfl, rfl⟩, hex, h.targets, ?_, h.ignored,
    h.dependencies, h.all, ?_, ?_, h.columns,
    ⟨h.twins.tables, h.twins.differ, h.twins.circles, h.twins.self, h.twins.stable, h.twins.dialect, h.twins.auto⟩, h.mergeKeys⟩, ?_⟩
  · dsimp only
    rw [h.rows.compactColumns]
    exact fun _ _ h => (nomatch h)
  · rw [M.setting_schema, M.setting_fnmatch]; exact h.plan
  · rw [M.setting_schema]; exact h.keys
  · rw [M.setting_schema]; exact h.intact
  · rw [subset_eq h.understood h.planner h.plan, run_database h.sampler h.output h.destination]

/-- C91. `subset` with such a configuration exits with 0, foreign keys hold after every commit, no row of the destination
is changed or removed, and sampled rows are appended with moved keys and references; tables passed through get the rows
with keys they did not have. -/
theorem c91_command (h : MergeFiles M files c P X src dst dc remap p)
    (hS : Sound (M.setting src (some dst)).dstDb (M.setting src (some dst)).computed S) :
    ∃ R, cmdSubset M files false false S F s = .ok (.database R) ∧
      exitStatus (cmdSubset M files false false S F s) = 0 ∧
      (∀ B ∈ R.hist, Intact (M.setting src (some dst)).dstDb B) ∧
      Sound (M.setting src (some dst)).dstDb (M.setting src (some dst)).computed R.final ∧
      (∀ k, ∃ new, R.final k = S k ++ new) ∧
      (∀ k, (∀ n ∈ dkeys p.queries, ¬ DestOf (renamed M.sub remap) n k) → R.final k = S k) ∧
      ∃ Smp off, IsSample (M.setting src (some dst)).engine (dbTables (M.schema src)) (M.setting src (some dst)).src p Smp ∧
        ∀ n ∈ dkeys p.queries, ∀ k t kd, parseTableName n = some k → (n, t) ∈ M.schema src → DestOf (renamed M.sub remap) n kd →
          ∃ new, R.final kd = S kd ++ new ∧
            (n ∉ p.passthrough → (∀ c ∈ t.primaryKey, IsOffset (S kd) c (off n)) ∧
              List.Forall₂ (MovedRow p off n t) (Smp k) new) ∧
            (n ∈ p.passthrough → t.primaryKey ≠ [] → ∀ r ∈ Smp k, ∃ r' ∈ S kd ++ new, ∀ c ∈ t.primaryKey, r'.get c = r.get c) := by
  obtain ⟨hR, he⟩ := h.run (S := S) (F := F) (s := s)
  obtain ⟨h1, h2, h3, Smp, off, h4, h5⟩ := c91_merge (s := s) hR hS
  obtain ⟨h6, h7⟩ := c91_sound (s := s) hR hS
  rw [M.setting_schema] at h4 h5
  refine ⟨_, he, ?_, h2, h6, h7, h3, Smp, off, h4, h5⟩
  rw [he]
  unfold exitStatus
  dsimp only
  rw [h1]
  rfl

/-- C91. Any number of calls of `subset`, with different files, sources, plans and remappings, can be made one after the
other on a database: all exit with 0, foreign keys hold throughout and no row is changed or removed. -/
theorem c91_calls {db : Dict Str TableMeta} {computed : Key → List Str} : ∀ {is : List (Call σ)} {S : DbState},
    Sound db computed S →
    (∀ i ∈ is, ∃ c P X src dst dc remap p, MergeFiles i.machine i.files c P X src dst dc remap p ∧
      (i.machine.setting src (some dst)).dstDb = db ∧ (i.machine.setting src (some dst)).computed = computed) →
    (∀ pre i post, is = pre ++ i :: post → exitStatus (i.run (afterCalls pre S)) = 0 ∧
      ∃ R, i.run (afterCalls pre S) = .ok (.database R) ∧ ∀ B ∈ R.hist, Intact db B) ∧
    Sound db computed (afterCalls is S) ∧ ∀ k, ∃ new, afterCalls is S k = S k ++ new := by
  intro is
  induction is with
  | nil =>
    intro S hS _
    refine ⟨fun pre i post h => ?_, hS, fun k => ⟨[], (List.append_nil _).symm⟩⟩
    cases pre <;> cases h
  | cons i is ih =>
    intro S hS hi
    obtain ⟨c, P, X, src, dst, dc, remap, p, hm, rfl, rfl⟩ := hi i (List.mem_cons_self ..)
    obtain ⟨R, h1, h2, h3, h4, h5, -⟩ := c91_command (F := fun _ => none) (s := i.start) hm hS
    have he : i.after S = R.final := by
      unfold Call.after Call.run
      rw [h1]
    obtain ⟨g1, g2, g3⟩ := ih h4 fun j hj => hi j (List.mem_cons_of_mem _ hj)
    rw [← he] at g1 g2 g3
    refine ⟨fun pre j post h => ?_, g2, fun k => ?_⟩
    · cases pre with
      | nil =>
        injection h with h _
        subst h
        exact ⟨h2, R, h1, h3⟩
      | cons a pre =>
        injection h with h h'
        subst h
        exact g1 pre j post h'
    · obtain ⟨a, ha⟩ := h5 k
      obtain ⟨b, hb⟩ := g3 k
      exact ⟨a ++ b, by rw [show afterCalls (i :: is) S k = _ from hb, he, ha, List.append_assoc]⟩

/-! ### Example: two files, and the databases of the example before -/

def miPlannerFile : Yaml := .map [
  (str! "source", .map [(str! "dialect", gxStr (str! "sqlite")), (str! "database", gxStr (str! "a.db"))]),
  (str! "planner", .map [
    (str! "select", .seq [gxStr (str! "s.o"), gxStr (str! "s.u")]),
    (str! "passthrough", .seq [gxStr (str! "s.g")]),
    (str! "targets", .map [(str! "s.o", .map [(str! "in", .map [(str! "uid", .seq [.leaf (.int 1)])])])])])]

def miSamplerFile : Yaml := .map [(str! "sampler", .map [(str! "output", .map [(str! "mode", gxStr (str! "database")),
  (str! "dialect", gxStr (str! "sqlite")), (str! "database", gxStr (str! "b.db")), (str! "merge", .leaf (.bool true)),
  (str! "remap", .seq [.map [(str! "search", gxStr (str! "^s")), (str! "replace", gxStr (str! "m"))]])])])]

def miSampler : SamplerConfig := zxSampler (.database (zxDb (str! "b.db")) [(str! "^s", str! "m")] .error true)

def miMachine (L : Lax) (K : Codes) : Machine Int where
  lax := L
  codes := K
  int := fun _ => some 0
  env := []
  sub := fun _ _ n => dxRemap n
  schema := fun _ => miSrcDb
  setting := fun _ _ => { miSetting with fnmatch := fnmatch }
  setting_schema := fun _ _ => rfl
  setting_fnmatch := fun _ _ => rfl

theorem miNamesF : planNames (plan fnmatch miSrcDb miCfg) = [str! "s.g", str! "s.o", str! "s.u"] := by decide +kernel
theorem miPassF : wxPass (plan fnmatch miSrcDb miCfg) = [str! "s.g"] := by decide +kernel

/-- The files of the example meet the conditions. -/
theorem mi_files (L : Lax) (K : Codes) : ∃ src dst p, MergeFiles (miMachine L K) [miPlannerFile, miSamplerFile]
    { source := zxDb (str! "a.db"), planner := some miCfg, sampler := some miSampler } miCfg miSampler src dst (zxDb (str! "b.db")) [(str! "^s", str! "m")] p := by
  have hset : ∀ n ∈ dkeys miSrcDb ++ dkeys miDst, NoSet n := by
    intro n hn a b e hb
    have : ∀ n ∈ dkeys miSrcDb ++ dkeys miDst, ']' ∉ n := by decide
    exact this n hn (by rw [e]; simp [hb])
  obtain ⟨p, hp, hR⟩ := mi_run_of (fun n hn => c67_self (hset n hn)) miNamesF miPassF
  obtain ⟨src, dst, hu, hd⟩ : ∃ src dst, Understood (miMachine L K) [miPlannerFile, miSamplerFile] { source := zxDb (str! "a.db"), planner := some miCfg, sampler := some miSampler } src ∧
    databaseEngine (miMachine L K).int (miMachine L K).env (some (str! "SUBSET_DESTINATION_")) (zxDb (str! "b.db")) = .ok dst :=
    ⟨_, _, ⟨c71_config.1 rfl, rfl⟩, rfl⟩
  have hT := hR.twins
  exact ⟨src, dst, p, hu, rfl, hp, hR.targets, rfl, .inl rfl, hR.all, rfl, zx_rows _, rfl, by decide, rfl, hd,
    ⟨hR.ok.src, hR.ok.srcColumns, fun n hn => hset n (List.mem_append_left _ hn)⟩,
    ⟨hR.ok.dst, hR.ok.closed, fun n hn => hset n (List.mem_append_right _ hn)⟩, hR.keys, hR.source, hR.columns,
    ⟨hT.tables, hT.differ, hT.circles, hT.self, hT.stable, hT.dialect, hT.auto⟩, hR.mergeKeys⟩

/-- C91 on the example: however often `subset` is called, the database stays sound and keeps its rows. -/
theorem mi_calls (L : Lax) (K : Codes) (i : Nat) (s : Int) :
    Sound miDst (fun _ => []) (afterCalls (List.replicate i ⟨miMachine L K, [miPlannerFile, miSamplerFile], s⟩) miBefore) ∧
    ∀ k, ∃ new, afterCalls (List.replicate i ⟨miMachine L K, [miPlannerFile, miSamplerFile], s⟩) miBefore k = miBefore k ++ new := by
  obtain ⟨src, dst, p, h⟩ := mi_files L K
  refine (c91_calls (db := miDst) (computed := fun _ => []) mi_sound fun j hj => ?_).2
  rw [List.eq_of_mem_replicate hj]
  exact ⟨_, _, _, _, _, _, _, _, h, rfl, rfl⟩

end Subsetter.Props
