import Verif.Proofs.ResampleRun
import Verif.Props.RunSucceeds
import Verif.Props.Looser

/-
C94: rows that were not sampled do not matter, and sampling a sample again changes nothing.
-/
namespace Subsetter.Props
open Spec

/-- C94. If no target is drawn at random, then any source that has the sampled rows, and no others than before in
the tables sampled, has the same sample; its tables that are not sampled do not matter. -/
theorem c94_unsampled_rows {cfg : PlannerConfig} {T : Tables} (hI : Input cfg T) {p : Plan} (h : planInternal cfg T = .ok p)
    (hx : ∀ n x, dget cfg.targets n = some x → NoDraw x) {E E' : Engine} (hE : SameMeaning E E') {Ts Ts' : Tables}
    {src src' S S' : Key → List Row} (hpk : PkOK Ts src) (hpk' : PkOK Ts' src') (hS : IsSample E Ts src p S)
    (hS' : IsSample E' Ts' src' p S') (hb : Between p S src src') : ∀ k q, Planned p k q → S' k = S k :=
  fun _ q hq => between_same hI h hE hpk hpk' hS hS' hx hb ⟨q, hq⟩

/-- C94, for targets without a percentage, and without an amount if tables that refer to them are sampled before: the
sample of the sampled rows, in whatever order they are stored, consists of the same rows, whatever is drawn.
Missing: the other options, see `c94_percent_again` and `c94_amount_again`. -/
theorem c94_resample_partial {cfg : PlannerConfig} {T : Tables} (hI : Input cfg T) {p : Plan} (h : planInternal cfg T = .ok p)
    (hx : ∀ k x, dget cfg.targets (k.1 ++ '.' :: k.2) = some x → DrawsAgain cfg T p k x) {E E' : Engine} (hE : SameMeaning E E')
    {Ts Ts' : Tables} {src src' S S' : Key → List Row} (hpk : PkOK Ts src) (hpk' : PkOK Ts' src') (hS : IsSample E Ts src p S)
    (hS' : IsSample E' Ts' src' p S') (hb : ∀ k q, Planned p k q → (src' k).Perm (S k)) :
    ∀ k q, Planned p k q → (S' k).Perm (S k) :=
  fun _ q hq => resample_perm hI h hE hpk hpk' hS hS' hx hb ⟨q, hq⟩

variable {σ : Type} {C : RunConfig} {D : Setting σ} {p : Plan} {S : DbState} {s : σ}

/-- C94 for whole runs: whatever the configuration, removing rows that are not sampled from the source changes nothing
in the outcome of a run, be it an error or what is written. -/
theorem c94_run (hok : RunOK C D p) {cfg : PlannerConfig} (hex : ∀ x ∈ cfg.extraFks, x.Valid)
    (htg : [] ∉ dkeys cfg.targets) (hplan : plan D.fnmatch D.srcDb cfg = .ok p)
    (hx : ∀ n x, dget cfg.targets n = some x → NoDraw x) {E' : Engine} (hE : SameMeaning D.engine E')
    {src' : Key → List Row} (hpk : PkOK (dbTables D.srcDb) D.src) (hpk' : PkOK (dbTables D.srcDb) src')
    (hb : ∀ Smp, IsSample D.engine (dbTables D.srcDb) D.src p Smp → Between p Smp D.src src') :
    sample C { D with src := src', engine := E' } p S s = sample C D p S s := by
  obtain ⟨T, hI, hpi, -⟩ := planned_from hok.src hex htg hplan
  refine sample_sameSample hok.src hok.plan (fun ha hp => ?_) S s
  obtain ⟨_, _, -, -, -, -, -, hS, -⟩ := materialized hp ha D.engine [] D.src true
  obtain ⟨_, _, -, -, -, -, -, hS', -⟩ := materialized hp ha E' [] src' true
  exact ⟨_, hS, isSample_of_eq hp hS' (c94_unsampled_rows hI hpi hx hE hpk hpk' hS hS' (hb _ hS))⟩

/-- C94 for two runs: a database created by a plain run is the source of a second one, with the same plan.  The
second run creates a database with the same rows in the same order. -/
theorem c94_again (hok : RunOK C D p) (hpl : Plain C) (hcr : C.create = true)
    (hdia : D.dialect ≠ .generic ∨ C.strategy = .error) {cfg : PlannerConfig} (hex : ∀ x ∈ cfg.extraFks, x.Valid)
    (htg : [] ∉ dkeys cfg.targets) (hplan : plan D.fnmatch D.srcDb cfg = .ok p)
    (hdep : cfg.includeDependencies = true) (hign : cfg.ignoreFks = [])
    (hcirc : ∀ k, Named cfg.passthrough k → ¬ Relation.TransGen (DbRef D.srcDb) k k)
    (hself : ∀ n ∈ dkeys p.queries, D.fnmatch n n = true) (hsrc : SourceOK D) (hfree : DestinationFree C D p S)
    (hx : ∀ n x, dget cfg.targets n = some x → NoDraw x)
    (hrows : ∀ n t, (n, t) ∈ D.srcDb → ∀ r ∈ D.src (t.schema, t.name), r.map Prod.fst = t.columns)
    {τ : Type} {C₂ : RunConfig} {D₂ : Setting τ} {S₂ : DbState} {s₂ : τ}
    (hok₂ : RunOK C₂ D₂ p) (hpl₂ : Plain C₂) (hcr₂ : C₂.create = true)
    (hdia₂ : D₂.dialect ≠ .generic ∨ C₂.strategy = .error) (hplan₂ : plan D₂.fnmatch D₂.srcDb cfg = .ok p)
    (hcirc₂ : ∀ k, Named cfg.passthrough k → ¬ Relation.TransGen (DbRef D₂.srcDb) k k)
    (hself₂ : ∀ n ∈ dkeys p.queries, D₂.fnmatch n n = true) (hsrc₂ : SourceOK D₂) (hfree₂ : DestinationFree C₂ D₂ p S₂)
    (hE : SameMeaning D.engine D₂.engine)
    (hcols : ∀ n t t₂, (n, t) ∈ D.srcDb → (n, t₂) ∈ D₂.srcDb → n ∈ dkeys p.queries → t₂.columns = t.columns)
    (hfrom : ∀ n k kd, n ∈ dkeys p.queries → parseTableName n = some k → DestOf C.remap n kd →
      D₂.src k = (sample C D p S s).final kd) :
    (sample C₂ D₂ p S₂ s₂).err = none ∧ ∀ n ∈ dkeys p.queries, ∃ kd kd₂, DestOf C.remap n kd ∧ DestOf C₂.remap n kd₂ ∧
      (sample C₂ D₂ p S₂ s₂).final kd₂ = (sample C D p S s).final kd := by
  obtain ⟨-, Smp, hS, hfin⟩ := c59_create_and_fill (s := s) hok hpl hcr hdia hex htg hplan hdep hign hcirc hself hsrc hfree
  obtain ⟨herr, Smp₂, hS₂, hfin₂⟩ := c59_create_and_fill (s := s₂) hok₂ hpl₂ hcr₂ hdia₂ hex htg hplan₂ hdep hign hcirc₂ hself₂ hsrc₂ hfree₂
  obtain ⟨T, hI, hpi, -⟩ := planned_from hok.src hex htg hplan
  have hkey : ∀ {n : Str} {k : Key} {t : TableMeta}, parseTableName n = some k → (n, t) ∈ D.srcDb → (t.schema, t.name) = k := by
    intro n k t h1 h2
    refine str_inj (k := (t.schema, t.name)) (hok.src.no_dot _ t h2) (parse_fst_nodot h1) ?_
    rw [parse_str h1]
    exact (hok.src.name_eq _ t h2).symm
  have hsame : ∀ k q, Planned p k q → D₂.src k = Smp k := by
    rintro k q ⟨n, h1, h2⟩
    have hn : n ∈ dkeys p.queries := List.mem_map.2 ⟨_, h1, rfl⟩
    obtain ⟨k', kd, t, td, g1, g2, g3, -, -, g6⟩ := hfin n hn
    rw [h2] at g1; cases g1
    have hnd := hok.srcColumns n t g2
    rw [hfrom n k kd hn h2 g3, g6]
    conv_rhs => rw [← List.map_id (Smp k)]
    refine List.map_congr_left fun r hr => ?_
    have hr : r ∈ D.src k := (sample_sublist hI hpi hsrc.pk hS hx ⟨q, n, h1, h2⟩).subset hr
    have hc := hrows n t g2 r (by rw [hkey h2 g2]; exact hr)
    exact row_as_columns hc hnd
  have heq := c94_unsampled_rows hI hpi hx hE hsrc.pk hsrc₂.pk hS hS₂ fun k q hq => by
    rw [hsame k q hq]
    exact ⟨List.Sublist.refl _, sample_sublist hI hpi hsrc.pk hS hx ⟨q, hq⟩⟩
  refine ⟨herr, fun n hn => ?_⟩
  obtain ⟨k, kd, t, td, g1, g2, g3, -, -, g6⟩ := hfin n hn
  obtain ⟨k₂, kd₂, t₂, td₂, f1, f2, f3, -, -, f6⟩ := hfin₂ n hn
  rw [g1] at f1; cases f1
  obtain ⟨q, hq⟩ := Option.isSome_iff_exists.1 (dget_isSome_iff.2 hn)
  refine ⟨kd, kd₂, g3, f3, ?_⟩
  rw [f6, g6, heq k q ⟨n, dget_some_mem hq, g1⟩, hcols n t t₂ g2 f2 hn]

/-! ### Examples -/

/-- The source of the examples without the user and the order that are not sampled, and with an unplanned table. -/
def rsSrc : Key → List Row := fun k =>
  if k = (str! "s", str! "u") then [[(str! "id", .int 1)]]
  else if k = (str! "s", str! "o") then [[(str! "id", .int 7), (str! "uid", .int 1)]]
  else [[(str! "id", .int 3)], [(str! "id", .int 3)]]

def rsShow : Except PlanErr (Except ExecErr (List (Key × List Row))) := .ok (.ok
  [((str! "s", str! "o"), [[(str! "id", .int 7), (str! "uid", .int 1)]]), ((str! "s", str! "u"), [[(str! "id", .int 1)]])])

/-- The orders of user 1, from both sources. -/
theorem c94_example : planExec exCfg exTables exSrc [str! "s.o", str! "s.u"] = rsShow ∧
    planExec exCfg exTables rsSrc [str! "s.o", str! "s.u"] = rsShow := by decide +kernel

theorem rsNoDraw {n : Str} {x : TargetConfig} (h : dget exCfg.targets n = some x) : NoDraw x := by
  have h := dget_some_mem h
  simp only [exCfg, List.mem_cons, List.not_mem_nil, or_false, Prod.mk.injEq] at h
  rw [h.2]
  exact ⟨rfl, .inr rfl⟩

theorem rsPk : PkOK exTables rsSrc := by
  intro k t h _
  have := exTables_ok.get.1 h
  simp only [exTables, List.mem_cons, Prod.mk.injEq, List.not_mem_nil, or_false] at this
  rcases this with ⟨rfl, rfl⟩ | ⟨rfl, rfl⟩ <;> decide +kernel

/-- The sample of the example. -/
def rsSmp : Key → List Row := fun k =>
  if k = (str! "s", str! "u") then [[(str! "id", .int 1)]]
  else if k = (str! "s", str! "o") then [[(str! "id", .int 7), (str! "uid", .int 1)]] else []

/-- The example meets the premises of `c94_unsampled_rows`. -/
theorem c94_example_applies : ∃ p, planInternal exCfg exTables = .ok p ∧ IsSample exEngine exTables exSrc p rsSmp ∧
    Between p rsSmp exSrc rsSrc ∧ ∀ E' S', SameMeaning exEngine E' → IsSample E' exTables rsSrc p S' →
      ∀ k q, Planned p k q → S' k = rsSmp k := by
  cases hp : planInternal exCfg exTables with
  | error e =>
    have : (match planInternal exCfg exTables with | .ok _ => true | .error _ => false) = true := by decide +kernel
    rw [hp] at this; cases this
  | ok p =>
    have h1 : (match planInternal exCfg exTables with
      | .ok p => decide (∀ e ∈ p.queries, ∃ k, parseTableName e.1 = some k ∧ rsSmp k = e.2.eval exEngine (sampleEnv exTables exSrc rsSmp) ∧
          (rsSmp k).isSublist (rsSrc k) = true ∧ (rsSrc k).isSublist (exSrc k) = true)
      | .error _ => false) = true := by decide +kernel
    rw [hp] at h1
    have h1 := of_decide_eq_true h1
    have hS : IsSample exEngine exTables exSrc p rsSmp := by
      rintro k q ⟨n, g1, g2⟩
      obtain ⟨k', g3, g4, -⟩ := h1 (n, q) g1
      rw [show parseTableName n = some k from g2] at g3; cases g3
      exact g4
    have hB : Between p rsSmp exSrc rsSrc := by
      rintro k q ⟨n, g1, g2⟩
      obtain ⟨k', g3, -, g4, g5⟩ := h1 (n, q) g1
      rw [show parseTableName n = some k from g2] at g3; cases g3
      exact ⟨List.isSublist_iff_sublist.1 g4, List.isSublist_iff_sublist.1 g5⟩
    exact ⟨p, rfl, hS, hB, fun E' S' hE hS' => c94_unsampled_rows exCfg_input hp (fun n x h => rsNoDraw h) hE exTables_pk rsPk hS hS' hB⟩

/-- Plan and execute with a given database. -/
def rsExec (E : Engine) (cfg : PlannerConfig) (src : Key → List Row) (names : List Str) :
    Except PlanErr (Except ExecErr (List (Key × List Row))) :=
  match planInternal cfg exTables with
  | .error e => .error e
  | .ok p => .ok (execPlan E exTables [] src true p names)

/-- A database that draws the row at position 1, and in reverse order. -/
def rsEngine : Engine where
  op := exEngine.op
  sql := exEngine.sql
  query := exEngine.query
  below := fun thr _ _ i => decide (1 ≤ thr) || (decide (0 < thr) && decide (i = 1))
  below_zero := fun thr _ _ i h => by
    have h1 : ¬ (1 : Rat) ≤ thr := fun h2 => absurd (le_trans h2 h) (by decide)
    simp [h1, not_lt.2 h]
  below_one := fun thr _ _ i h => by simp [h]
  shuffle := fun _ _ l => l.reverse
  shuffle_perm := fun _ _ l => l.reverse_perm

/-- An amount where nothing refers to the target: one order and its user; -/
def rsAmount : PlannerConfig := { targets := [(str! "s.o", { amount := some 1 })] }

/-- the sample of this sample is the same, though the database draws differently. -/
theorem c94_amount_example : rsExec exEngine rsAmount exSrc [str! "s.o", str! "s.u"] = rsShow ∧
    rsExec rsEngine rsAmount rsSmp [str! "s.o", str! "s.u"] = rsShow ∧
    rsExec rsEngine rsAmount exSrc [str! "s.o", str! "s.u"] = .ok (.ok
      [((str! "s", str! "o"), [[(str! "id", .int 8), (str! "uid", .int 2)]]), ((str! "s", str! "u"), [[(str! "id", .int 2)]])]) :=
  ⟨by decide +kernel, by decide +kernel, by decide +kernel⟩

/-- The full claim is false: of the order drawn with a percentage, none is drawn again. -/
theorem c94_percent_again : ∃ src',
    rsExec rsEngine { targets := [(str! "s.o", { percent := some 50 })] } exSrc [str! "s.o", str! "s.u"] =
      .ok (.ok [((str! "s", str! "o"), src' (str! "s", str! "o")), ((str! "s", str! "u"), src' (str! "s", str! "u"))]) ∧
    src' (str! "s", str! "o") = [[(str! "id", .int 8), (str! "uid", .int 2)]] ∧
    rsExec rsEngine { targets := [(str! "s.o", { percent := some 50 })] } src' [str! "s.o", str! "s.u"] =
      .ok (.ok [((str! "s", str! "o"), []), ((str! "s", str! "u"), [])]) :=
  ⟨fun k => if k = (str! "s", str! "o") then [[(str! "id", .int 8), (str! "uid", .int 2)]] else
    if k = (str! "s", str! "u") then [[(str! "id", .int 2)]] else [], by decide +kernel⟩

/-- The full claim is false: one user is drawn, and another is added for an order; drawing one of these two again may give
the one added. -/
theorem c94_amount_again : ∃ src',
    rsExec exEngine { targets := [(str! "s.o", { in_ := [(str! "uid", [.int 2])] }), (str! "s.u", { amount := some 1 })] } exSrc [str! "s.o", str! "s.u"] =
      .ok (.ok [((str! "s", str! "o"), src' (str! "s", str! "o")), ((str! "s", str! "u"), src' (str! "s", str! "u"))]) ∧
    src' (str! "s", str! "u") = [[(str! "id", .int 2)], [(str! "id", .int 1)]] ∧
    rsExec exEngine { targets := [(str! "s.o", { in_ := [(str! "uid", [.int 2])] }), (str! "s.u", { amount := some 1 })] } src' [str! "s.o", str! "s.u"] =
      .ok (.ok [((str! "s", str! "o"), src' (str! "s", str! "o")), ((str! "s", str! "u"), [[(str! "id", .int 2)]])]) :=
  ⟨fun k => if k = (str! "s", str! "o") then [[(str! "id", .int 8), (str! "uid", .int 2)]] else
    if k = (str! "s", str! "u") then [[(str! "id", .int 2)], [(str! "id", .int 1)]] else [], by decide +kernel⟩

/-- The configuration with an amount meets the premises of `c94_resample_partial`. -/
theorem c94_amount_applies {p : Plan} (h : planInternal rsAmount exTables = .ok p) {E E' : Engine} (hE : SameMeaning E E')
    {src' S S' : Key → List Row} (hpk' : PkOK exTables src') (hS : IsSample E exTables exSrc p S)
    (hS' : IsSample E' exTables src' p S') (hb : ∀ k q, Planned p k q → (src' k).Perm (S k)) :
    ∀ k q, Planned p k q → (S' k).Perm (S k) := by
  refine c94_resample_partial ⟨exTables_ok, (fun _ h => by cases h), by decide⟩ h (fun k x hx => ?_) hE exTables_pk hpk' hS hS' hb
  have hm := dget_some_mem hx
  simp only [rsAmount, List.mem_cons, List.not_mem_nil, or_false, Prod.mk.injEq] at hm
  refine ⟨by rw [hm.2]; exact .inr rfl, .inr (.inr fun a hf => ?_)⟩
  obtain ⟨⟨l₁, l₂, e1, e2, -⟩, -⟩ := hf
  have hn : (match planInternal rsAmount exTables with | .ok p => p.queries.map Prod.fst | .error _ => []) = [str! "s.o", str! "s.u"] := by
    decide +kernel
  rw [h] at hn
  dsimp only at hn
  rw [hn, show k.str = str! "s.o" from hm.1] at e1
  cases l₁ with
  | nil => cases e2
  | cons b l =>
    have : str! "s.o" ∈ [str! "s.u"] := by
      rw [(List.cons.inj e1).2]
      simp
    exact absurd this (by decide)

/-! Two runs. -/

/-- What the first run leaves. -/
def rsFirst : DbState :=
  match plan dxEq (axSetting dxEq).srcDb axCfg with
  | .ok p => (sample { remap := dxRemap, create := true } (axSetting dxEq) p (fun _ => []) 0).final
  | .error _ => fun _ => []

/-- The database created by the first run, under the names of its source. -/
def rsAgain : Setting Int := { axSetting dxEq with src := fun k => rsFirst (str! "m", k.2) }

theorem rs_rows : rsFirst (str! "m", str! "u") = exSrc (str! "s", str! "u") ∧
    rsFirst (str! "m", str! "o") = [[(str! "id", .int 7), (str! "uid", .int 1)]] := by decide +kernel

theorem rs_source : SourceOK rsAgain := by
  refine ⟨fun k t hk hne => ?_, (ax_source (f := dxEq)).pkColumns, (ax_source (f := dxEq)).fkColumns, fun h => by cases h⟩
  have hm := dget_some_mem hk
  simp only [dbTables, rsAgain, axSetting, rxSetting, List.map_cons, List.map_nil, List.mem_cons, List.not_mem_nil, or_false] at hm
  rcases hm with hm | hm <;> cases hm
  · show ((rsFirst (str! "m", str! "o")).map _).Nodup
    rw [rs_rows.2]; decide
  · show ((rsFirst (str! "m", str! "u")).map _).Nodup
    rw [rs_rows.1]; decide

/-- The example meets the premises of `c94_again`: the second run leaves the rows of the first. -/
theorem c94_again_example : ∃ p, plan dxEq (axSetting dxEq).srcDb axCfg = .ok p ∧
    (sample { remap := dxRemap, create := true } rsAgain p (fun _ => []) 0).err = none ∧
    ∀ n ∈ dkeys p.queries, ∃ kd kd₂, DestOf dxRemap n kd ∧ DestOf dxRemap n kd₂ ∧
      (sample { remap := dxRemap, create := true } rsAgain p (fun _ => []) 0).final kd₂ = rsFirst kd := by
  have hn := axNames
  cases h : plan dxEq (axSetting dxEq).srcDb axCfg with
  | error e => rw [h] at hn; cases hn
  | ok p =>
    rw [h] at hn
    have hn : dkeys p.queries = [str! "s.u", str! "s.o"] := hn
    have hfirst : (sample { remap := dxRemap, create := true } (axSetting dxEq) p (fun _ => []) 0).final = rsFirst := by
      unfold rsFirst
      rw [h]
    have hplain : Plain { remap := dxRemap, create := true } :=
      ⟨fun _ _ h => (nomatch h), ⟨rfl, rfl⟩, fun _ _ h => (nomatch h), by decide, rfl⟩
    have hok := ax_ok (f := dxEq) (C := { remap := dxRemap, create := true }) rfl hn
    have hfree := ax_free (f := dxEq) (C := { remap := dxRemap, create := true }) rfl hn
    have := c94_again (s := (0 : Int)) (s₂ := (0 : Int)) hok hplain rfl (.inl (by decide)) (cfg := axCfg) (fun _ h => nomatch h) (by decide) h (by decide) rfl
      (fun _ hk => ax_nocircle hk) (fun n _ => by simp [axSetting, dxEq]) ax_source hfree
      (fun n x hx => rsNoDraw hx) (by
        have : ∀ e ∈ (rxSetting []).srcDb, ∀ r ∈ exSrc (e.2.schema, e.2.name), r.map Prod.fst = e.2.columns := by decide
        exact fun n t hm r hr => this (n, t) hm r hr)
      (D₂ := rsAgain) (C₂ := { remap := dxRemap, create := true }) (S₂ := fun _ => [])
      ⟨hok.src, hok.dst, hok.closed, hok.srcColumns, hok.self, hok.plan, hok.compactNames⟩ hplain rfl (.inl (by decide)) h
      (fun _ hk => ax_nocircle (f := dxEq) hk) (fun n _ => by simp [rsAgain, axSetting, dxEq]) rs_source
      ⟨hfree.dest, hfree.differ, hfree.free, hfree.circles⟩ ⟨rfl, rfl⟩
      (by
        have : ∀ e ∈ (rxSetting []).srcDb, ∀ e' ∈ (rxSetting []).srcDb, e'.1 = e.1 → e'.2.columns = e.2.columns := by decide
        exact fun n t t₂ h1 h2 _ => this (n, t) h1 (n, t₂) h2 rfl)
      (fun n k kd hm hk hd => by
        rw [hfirst]
        show rsFirst (str! "m", k.2) = rsFirst kd
        rw [hn] at hm
        simp only [List.mem_cons, List.not_mem_nil, or_false] at hm
        rcases hm with rfl | rfl
        · cases hk
          rw [destOf_unique hd (show DestOf dxRemap (str! "s.u") (str! "m", str! "u") from ⟨str! "s", str! "u", by decide, by decide⟩)]
        · cases hk
          rw [destOf_unique hd (show DestOf dxRemap (str! "s.o") (str! "m", str! "o") from ⟨str! "s", str! "o", by decide, by decide⟩)])
    rw [hfirst] at this
    exact ⟨p, rfl, this⟩

/-! A run on less. -/

/-- The source without the order that is not sampled. -/
def rsLess : Key → List Row := fun k =>
  if k = (str! "s", str! "o") then [[(str! "id", .int 7), (str! "uid", .int 1)]] else exSrc k

/-- The example meets the premises of `c94_run`: without the order that is not sampled, every run with a given
plan, whatever its other options, ends the same way. -/
theorem c94_run_example : ∃ p, plan dxEq (axSetting dxEq).srcDb axCfg = .ok p ∧
    ∀ C : RunConfig, C.compact.columns = [] → ∀ S s,
      sample C { axSetting dxEq with src := rsLess } p S s = sample C (axSetting dxEq) p S s := by
  have hn := axNames
  cases h : plan dxEq (axSetting dxEq).srcDb axCfg with
  | error e => rw [h] at hn; cases hn
  | ok p =>
    rw [h] at hn
    have hn : dkeys p.queries = [str! "s.u", str! "s.o"] := hn
    have h1 : (match plan dxEq (axSetting dxEq).srcDb axCfg with
      | .ok p => decide (∀ e ∈ p.queries, ∃ k, parseTableName e.1 = some k ∧
          rsLess k = e.2.eval exEngine (sampleEnv (dbTables (rxSetting []).srcDb) exSrc rsLess) ∧ (rsLess k).isSublist (exSrc k) = true)
      | .error _ => false) = true := by decide +kernel
    rw [h] at h1
    have h1 := of_decide_eq_true h1
    have hS : IsSample exEngine (dbTables (rxSetting []).srcDb) exSrc p rsLess := by
      rintro k q ⟨n, g1, g2⟩
      obtain ⟨k', g3, g4, -⟩ := h1 (n, q) g1
      rw [show parseTableName n = some k from g2] at g3; cases g3
      exact g4
    have hB : ∀ k q, Planned p k q → (rsLess k).Sublist (exSrc k) := by
      rintro k q ⟨n, g1, g2⟩
      obtain ⟨k', g3, -, g4⟩ := h1 (n, q) g1
      rw [show parseTableName n = some k from g2] at g3; cases g3
      exact List.isSublist_iff_sublist.1 g4
    have hpk := (ax_source (f := dxEq)).pk
    have hpk' : PkOK (dbTables (axSetting dxEq).srcDb) rsLess := by
      intro k t hk hne
      have hm := dget_some_mem hk
      simp only [dbTables, axSetting, rxSetting, List.map_cons, List.map_nil, List.mem_cons, List.not_mem_nil, or_false] at hm
      rcases hm with hm | hm <;> cases hm <;> decide +kernel
    refine ⟨p, rfl, fun C hC S s => c94_run (D := axSetting dxEq) (E' := exEngine) (ax_ok hC hn) (cfg := axCfg) (fun _ h => nomatch h) (by decide) h
      (fun n x hx => rsNoDraw hx) ⟨rfl, rfl⟩ hpk hpk' fun Smp hSmp => ?_⟩
    obtain ⟨T, hI, hpi, -⟩ := planned_from (ax_ok (f := dxEq) hC hn).src (cfg := axCfg) (fun _ h => nomatch h) (by decide) h
    have heq := c94_unsampled_rows hI hpi (fun n x hx => rsNoDraw hx) ⟨rfl, rfl⟩ hpk hpk hS hSmp
      fun k q hq => ⟨hB k q hq, List.Sublist.refl _⟩
    exact fun k q hq => ⟨by rw [heq k q hq], hB k q hq⟩

end Subsetter.Props
