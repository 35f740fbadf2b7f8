import Verif.Model.Main
import Verif.Props.RunSucceeds
import Verif.Props.PlanFile

/-
Property C65: planning and sampling in one command or in two.
-/
namespace Subsetter.Props
open Subsetter Spec

variable {σ : Type} {C : RunConfig} {D : Setting σ} {p p' : Plan} {S : DbState} {s s' : σ}

/-- The rows a plain run writes. -/
theorem plain_outs (hpl : Plain C) {schema : Dict Str TableMeta} {B : DbState}
    {Smp : Key → List Row} {ids : Key → List Int} {T : Tables} {mult : Dict Str (List Str)}
    {compact : Dict Key (List Str)} {offs : Dict Key (Dict Str Int)}
    (hder : Derived C D p schema B T mult compact offs) {n : Str} {k kd : Key} {t td : TableMeta}
    (hids : (ids k).length = (Smp k).length)
    (hnd : t.columns.Nodup) {ch : Chain Val} {rows : List Row} {outs : List (List Val)}
    (h : Sent C D p T mult compact offs Smp ids n k kd t td ch rows outs)
    (hlen : outs.length = rows.length * timesWritten C p n) :
    outs = (Smp k).map fun r => (t.columns.filter fun c => decide (c ∉ (target D kd td).computed)).map r.get := by
  obtain ⟨h1, h2⟩ := plain_rows hpl hder hids hnd h hlen
  have hfit := h.fitting
  rw [h2] at h1 hfit
  have hl : outs.length = (Smp k).length := by simpa [fullRows] using congrArg List.length h1
  refine List.ext_getElem (by simpa using hl) fun i hi hi' => ?_
  have hi2 : i < (Smp k).length := by simpa using hi'
  have e := List.getElem_of_eq h1 (i := i) (by simpa [fullRows] using hi)
  simp only [fullRows, List.getElem_map] at e
  have hlen := hfit.2.2 _ (List.getElem_mem hi)
  rw [List.getElem_map]
  refine List.ext_getElem (by simpa using hlen) fun j hj hj' => ?_
  rw [List.getElem_map]
  rw [List.length_map] at hj'
  generalize hc : (t.columns.filter fun c => decide (c ∉ (target D kd td).computed))[j] = c
  have hcm : c ∈ t.columns.filter fun c => decide (c ∉ (target D kd td).computed) := hc ▸ List.getElem_mem hj'
  have hct := (List.mem_filter.1 hcm).1
  obtain ⟨hcd, hcc⟩ := hfit.2.1 c hcm
  have e2 := congrArg (fun r => Row.get r c) e
  rw [fullRow_get hcd hcc, dget_zip, valueOf_eq hfit.1 hlen (i := j) (by rw [List.getElem?_eq_getElem hj', hc]),
    List.getElem?_eq_getElem hj] at e2
  refine e2.trans ?_
  unfold landed
  rw [Row.get, dget_mapped (f := fun c => if c ∈ t.columns then (Smp k)[i].get c else (target D kd td).default c)
    (List.mem_filter.2 ⟨hcd, by simpa using hcc⟩), if_pos hct]
  rfl

theorem commits_det {Δ : Type} {flush : List (List Val) → Δ → Except OutErr Δ} {d d1 d2 : Δ}
    {bs : List (List (List Val))} (h1 : Commits flush d bs d1) (h2 : Commits flush d bs d2) : d1 = d2 := by
  induction h1 with
  | nil => cases h2; rfl
  | cons e _ ih =>
    cases h2 with
    | cons e' h2 =>
      rw [e] at e'
      cases e'
      exact ih h2

/-- Plain runs of plans with the same queries leave the same contents in tables that were there before. -/
theorem same_result (hok : RunOK C D p) (hpl : Plain C) (hpo : PlanOK (dbTables D.srcDb) p) (hac : Acyclic p)
    (hsame : SamePlan p p') (hcr : C.create = false) (h : (sample C D p S s).err = none)
    (h' : (sample C D p' S s').err = none) : (sample C D p' S s').final = (sample C D p S s).final := by
  obtain ⟨order, B, Smp, ids, T, mult, compact, offs, h1, h2, h3⟩ := c61_run hok h
  obtain ⟨order', B', Smp', ids', T', mult', compact', offs', g1, g2, g3⟩ := c61_run (hsame.runOK hok) h'
  have e1 : (sample C D p S s).schema = D.dstDb := schema_kept hcr
  have e2 : (sample C D p' S s').schema = D.dstDb := schema_kept hcr
  rw [e1] at h1 h2 h3
  rw [e2] at g1 g2 g3
  have hB : B' = B := by
    funext k
    have g := hsame.begins.2 g1.begins
    by_cases hk : C.truncate = true ∧ Reached C D p k
    · rw [h1.begins.emptied hk.1 k hk.2, g.emptied hk.1 k hk.2]
    · rw [h1.begins.kept k fun ht hr => hk ⟨ht, hr⟩, g.kept k fun ht hr => hk ⟨ht, hr⟩]
  have hS := isSample_unique hpo hac h1.sample (hsame.isSample.2 g1.sample)
  funext kd
  by_cases hc : ∃ n k t td, Copied C D p D.dstDb n k kd t td
  · obtain ⟨n, k, t, td, hc⟩ := hc
    obtain ⟨ch, rows, bs, a1, a2, a3, a4⟩ := h2 n k kd t td hc
    obtain ⟨ch', rows', bs', b1, b2, b3, b4⟩ := g2 n k kd t td (hsame.copied.1 hc)
    have hnd := hok.srcColumns n t hc.source
    obtain ⟨q, hq⟩ := Option.isSome_iff_exists.1 (dget_isSome_iff.2 hc.planned)
    have hbs : bs' = bs := by
      refine batches_unique b3 a3 ?_
      rw [plain_outs hpl h1.derived (h1.ids k).1 hnd a1 a2, plain_outs hpl g1.derived (g1.ids k).1 hnd b1 b2,
        hS k q ⟨n, dget_some_mem hq, hc.name⟩]
    have hw : writtenColumns ch' (target D kd td) = writtenColumns ch (target D kd td) := by
      rw [(plain_rows hpl h1.derived (h1.ids k).1 hnd a1 a2).2, (plain_rows hpl g1.derived (g1.ids k).1 hnd b1 b2).2]
    have hst : strategyFor C p' n = strategyFor C p n := by
      unfold strategyFor
      rw [hsame.2]
    rw [hB, hbs, hw, hst] at b4
    exact commits_det b4 a4
  · rw [h3 kd fun n k t td hx => hc ⟨n, k, t, td, hx⟩,
      g3 kd fun n k t td hx => hc ⟨n, k, t, td, hsame.copied.2 hx⟩, hB]

/-- C65. A plan written to a file by `plan` can be read by `sample`, and a plain run into existing tables leaves the
same contents as `subset`, if neither fails. -/
theorem c65_two_commands {code : Rat → Nat} {file : Yaml} {cfg : PlannerConfig} (hex : ∀ x ∈ cfg.extraFks, x.Valid)
    (htg : [] ∉ dkeys cfg.targets) (hplan : mainPlan D.fnmatch D.srcDb (some cfg) = .ok p) (hf : DumpsPlan code p file)
    (hok : RunOK C D p) (hpl : Plain C) (hcr : C.create = false) :
    ∃ R R', mainSubset (some cfg) (some C) D S s = .ok R ∧ mainSample code file (some C) D S s' = .ok R' ∧
      (R.err = none → R'.err = none → R'.final = R.final ∧ R'.schema = R.schema) := by
  unfold mainPlan at hplan
  dsimp only at hplan
  split at hplan
  · cases hplan
  rename_i p0 h0
  cases hplan
  obtain ⟨p', h1, h2⟩ := c49_round_trip hf
  refine ⟨sample C D p S s, sample C D p' S s', ?_, ?_, fun h h' => ⟨?_, ?_⟩⟩
  · unfold mainSubset
    dsimp only
    rw [h0]
    rfl
  · unfold mainSample
    rw [h1]
    rfl
  · obtain ⟨T, hI, hpi, hT⟩ := planned_from hok.src hex htg h0
    obtain ⟨ign, pass, T₁, T₂, found, ord, hp⟩ := planning hI hpi
    refine same_result hok hpl (hp.shape.planOK hp.ok fun k hk => ?_) (hp.shape.acyclic hp.ok) h2 hcr h h'
    obtain ⟨t, ht⟩ := Option.isSome_iff_exists.1 (hp.isSome_iff.1 (hp.shape.inT hp.ok hk))
    have hm := hT k t (dget_some_mem ht)
    have hk' : (t.schema, t.name) = k := str_inj (k := (t.schema, t.name)) (hok.src.no_dot _ t hm) (hp.nodot hk)
      (hok.src.name_eq _ t hm).symm
    rw [dbTables_get hok.src (t := t) (k := k) hm hk']
    rfl
  · rw [schema_kept hcr, schema_kept hcr]

/-- C65. Likewise for tables created by the run; in this case both commands succeed under the conditions of C59. -/
theorem c65_two_commands_create {code : Rat → Nat} {file : Yaml} {cfg : PlannerConfig}
    (hex : ∀ x ∈ cfg.extraFks, x.Valid) (htg : [] ∉ dkeys cfg.targets)
    (hplan : mainPlan D.fnmatch D.srcDb (some cfg) = .ok p) (hf : DumpsPlan code p file)
    (hok : RunOK C D p) (hpl : Plain C) (hcr : C.create = true) (hdia : D.dialect ≠ .generic ∨ C.strategy = .error)
    (hdep : cfg.includeDependencies = true) (hign : cfg.ignoreFks = [])
    (hcirc : ∀ k, Named cfg.passthrough k → ¬ Relation.TransGen (DbRef D.srcDb) k k)
    (hself : ∀ n ∈ dkeys p.queries, D.fnmatch n n = true) (hsrc : SourceOK D) (hfree : DestinationFree C D p S) :
    ∃ R R', mainSubset (some cfg) (some C) D S s = .ok R ∧ mainSample code file (some C) D S s' = .ok R' ∧
      exitCode (.ok R) = 0 ∧ exitCode (.ok R') = 0 ∧ R'.final = R.final := by
  unfold mainPlan at hplan
  dsimp only at hplan
  split at hplan
  · cases hplan
  rename_i p0 h0
  cases hplan
  obtain ⟨p', h1, h2⟩ := c49_round_trip hf
  obtain ⟨a1, Smp, a2, a3⟩ := c59_create_and_fill (s := s) hok hpl hcr hdia hex htg h0 hdep hign hcirc hself hsrc hfree
  have hok' := h2.runOK hok
  obtain ⟨b1, Smp', b2, b3⟩ := create_and_fill (s := s') h2 hok' hpl hcr hdia hex htg h0 hdep hign hcirc
    (fun n hn => hself n (h2.names.2 hn)) hsrc ⟨fun n hn => hfree.dest n (h2.names.2 hn),
      fun n hn n' hn' => hfree.differ n (h2.names.2 hn) n' (h2.names.2 hn'),
      fun n hn => hfree.free n (h2.names.2 hn), hfree.circles⟩
  refine ⟨sample C D p S s, sample C D p' S s', ?_, ?_, ?_, ?_, ?_⟩
  · unfold mainSubset
    dsimp only
    rw [h0]
    rfl
  · unfold mainSample
    rw [h1]
    rfl
  · unfold exitCode
    dsimp only
    rw [a1]
    rfl
  · unfold exitCode
    dsimp only
    rw [b1]
    rfl
  · obtain ⟨T, hI, hpi, hT⟩ := planned_from hok.src hex htg h0
    obtain ⟨ign, pass, T₁, T₂, found, ord, hp⟩ := planning hI hpi
    have hS := isSample_unique (hp.shape.planOK (Ts := dbTables D.srcDb) hp.ok fun k hk => by
      obtain ⟨t, ht⟩ := Option.isSome_iff_exists.1 (hp.isSome_iff.1 (hp.shape.inT hp.ok hk))
      have hm := hT k t (dget_some_mem ht)
      have hk' : (t.schema, t.name) = k := str_inj (k := (t.schema, t.name)) (hok.src.no_dot _ t hm) (hp.nodot hk)
        (hok.src.name_eq _ t hm).symm
      rw [dbTables_get hok.src (t := t) (k := k) hm hk']
      rfl) (hp.shape.acyclic hp.ok) a2 (h2.isSample.2 b2)
    funext kd
    by_cases hd : ∃ n ∈ dkeys p.queries, DestOf C.remap n kd
    · obtain ⟨n, hn, hd⟩ := hd
      obtain ⟨k, kd1, t, td, g1, g2, g3, -, -, g4⟩ := a3 n hn
      obtain ⟨k', kd2, t', td', i1, i2, i3, -, -, i4⟩ := b3 n (h2.names.1 hn)
      have e1 := destOf_unique g3 hd
      have e2 := destOf_unique i3 hd
      subst e1; subst e2
      rw [g1] at i1
      cases i1
      have e3 : t' = t := by
        have := dget_of_mem hok.src.names_nodup i2
        rw [dget_of_mem hok.src.names_nodup g2] at this
        exact (Option.some.inj this).symm
      subst e3
      obtain ⟨q, hq⟩ := Option.isSome_iff_exists.1 (dget_isSome_iff.2 hn)
      rw [g4, i4, hS k q ⟨n, dget_some_mem hq, g1⟩]
    · obtain ⟨-, -, -, a4⟩ := c58_exactly_the_sample hok hpl a1
      obtain ⟨-, -, -, b4⟩ := c58_exactly_the_sample hok' hpl b1
      obtain ⟨a5, a6⟩ := a4 kd fun n k t td hc => hd ⟨n, hc.planned, hc.dest⟩
      obtain ⟨b5, b6⟩ := b4 kd fun n k t td hc => hd ⟨n, h2.names.2 hc.planned, hc.dest⟩
      by_cases ht : C.truncate = true ∧ Reached C D p kd
      · rw [a5 ht.1 ht.2, b5 ht.1 (h2.reached.1 ht.2)]
      · rw [a6 fun x y => ht ⟨x, y⟩, b6 fun x y => ht ⟨x, h2.reached.2 y⟩]

/-- The commands agree on what is missing in the configuration. -/
theorem c65_sections (planner : Option PlannerConfig) (C : Option RunConfig) (s : σ) :
    (∀ e, mainPlan D.fnmatch D.srcDb planner = .error e → mainSubset planner C D S s = .error e) ∧
    (∀ code file, C = none → exitCode (mainSubset planner C D S s) = 1 ∧ exitCode (mainSample code file C D S s) = 1) := by
  refine ⟨fun e h => ?_, fun code file hC => ?_⟩
  · cases planner with
    | none => cases h; rfl
    | some cfg =>
      unfold mainPlan at h
      unfold mainSubset
      dsimp only at h ⊢
      split at h
      · cases h; rfl
      · cases h
  · subst hC
    constructor
    · unfold mainSubset
      split
      · rfl
      · split <;> rfl
    · unfold mainSample
      split <;> rfl

/-! ### Example -/

/-- Exit status, contents of users, orders and another table. -/
def bxShow (R : Except MainErr RunResult) : Nat × List (List Row) :=
  (exitCode R, match R with | .ok R => (rxShow R).2 | .error _ => [])

/-- `subset`, and `sample` with a file that lists the queries in another order; the hypotheses of the theorems are met by
`ax_create` and `fxFile_dumps`. -/
theorem bx_subset : bxShow (mainSubset (some { exCfg with select := [str! "s.o"] }) (some { remap := dxRemap, create := true }) (rxSetting []) (fun _ => []) 0) =
    (0, [[[(str! "id", .int 1)]], [[(str! "id", .int 7), (str! "uid", .int 1)]], []]) := by decide +kernel

theorem bx_sample : bxShow (mainSample (fun _ => 0) fxFile (some { remap := dxRemap, create := true }) (rxSetting []) (fun _ => []) 0) =
    (0, [[[(str! "id", .int 1)]], [[(str! "id", .int 7), (str! "uid", .int 1)]], []]) := by decide +kernel

/-- Without a section `sampler` nothing is sampled although all its fields have defaults. -/
theorem c65_no_sampler : bxShow (mainSample (fun _ => 0) fxFile none (rxSetting []) (fun _ => []) 0) = (1, []) := by decide +kernel

end Subsetter.Props
