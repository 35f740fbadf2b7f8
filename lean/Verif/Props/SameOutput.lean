import Verif.Proofs.SameOutput
import Verif.Props.RunDirectory
import Verif.Spec.RunWorks

/-
Property C96: a directory and a database get the same rows.
-/
namespace Subsetter.Props
open Subsetter Spec

variable {σ : Type} {C : RunConfig} {D : Setting σ} {p : Plan} {S : DbState} {F F' : Files} {s s' : σ}

/-- C96. If a sample is written to a database and, with the same configuration, to a directory, then a table to which
rows are only added gets one row for each line of the file, in the same order and with the same values; with merging,
values of a column are all moved by the same number. -/
theorem c96_same_rows (hok : RunOK C D p) (h : (sample C D p S s).err = none)
    (hd : sampleDirectory C D p F s' = (F', none)) :
    ∃ (B : DbState) (shift : Key → Str → Option Int), Begins C D p S B ∧ (C.merge = false → ∀ kd c, shift kd c = none) ∧
      ∀ n k kd t td, Copied C D p (sample C D p S s).schema n k kd t td →
        strategyFor C p n = .error ∨ td.primaryKey = [] →
        (∀ fs, (n, fs) ∈ C.filters → ∀ f ∈ fs, FilterCfg.Settled f) →
        ∃ lines stored, F' (fileOf n) = some lines ∧ (sample C D p S s).final kd = B kd ++ stored ∧
          (∀ line ∈ lines, dkeys line = t.columns.filter fun c => decide (c ∉ omitted (filtersOf C n))) ∧
          List.Forall₂ (Agrees (target D kd td) (shift kd)) lines stored := by
  have hro : ReadOK C D p := ⟨hok.src, hok.srcColumns, hok.plan, hok.compactNames⟩
  rcases sample_cases C D p S s with ⟨-, -, ⟨e, he⟩, -⟩ | ⟨-, -, -, -, -, -, -, -, -, -, -, -, e, he, -⟩ |
    ⟨r, db, x, order, states, offs, compact, mat, temps, hst, h1, h2⟩
  · rw [h] at he; cases he
  · rw [h] at he; cases he
  rcases sampleDirectory_cases (C := C) (D := D) (p := p) (F := F) (s := s') with
    ⟨e, he⟩ | ⟨l, T, mult, compact', mat', temps', hst', he⟩
  · rw [he] at hd; cases hd
  obtain ⟨l', e1, -, e2, -, e3, -⟩ := startRun_ok hst.start
  rw [hst'.load] at e1; cases e1
  have hT : T = r.tables := by rw [hst'.infer, e2]
  subst hT
  have hmult : mult = r.mult := by have := hst'.mult; rw [e3] at this; cases this; rfl
  subst hmult
  have hcomp : compact' = compact := by have := hst'.compacted; rw [hst.compacted] at this; cases this; rfl
  subst hcomp
  have hmat : mat' = mat := by have := hst'.ordered; rw [hst.ordered] at this; cases this; rfl
  subst hmat
  have htemps : temps' = temps := by have := hst'.materialized; rw [hst.materialized] at this; cases this; rfl
  subst htemps
  rw [h] at h2
  rw [he] at hd
  obtain ⟨B, rest, Smp0, ids, hB, hcp, hinj, -, -⟩ := hst.copying hok
  rw [hB] at h2
  obtain ⟨X, rest', done, todo, g1, g2, g3⟩ := copyAll_content hcp.nodup hinj h2
  have e : (sample C D p S s).final = X := by unfold RunResult.final; rw [g1]; rfl
  have e' := g3.1 rfl
  subst e'
  have e'' := g2.names_eq
  rw [List.append_nil] at e''
  subst e''
  obtain ⟨done, todo, d1, d2, d3, -, -⟩ := copyFiles_spec hok.plan (fun n hn => ⟨readRows_ne hn, fun k ch rows hr => by
    obtain ⟨_, _, _, hk, -⟩ := readRows_some hr
    exact fileName_eq hk⟩) hd
  have d2 := d2 rfl
  subst d2
  rw [List.append_nil] at d1
  obtain ⟨Smp, hsmp, hS, htemps⟩ := hst.sample hok
  refine ⟨B, fun kd c => dget ((dget offs kd).getD []) c, hcp.begins, fun hm kd c => ?_, fun n k kd t td hc hadd hset => ?_⟩
  · have := hst.prepare
    unfold prepareStep at this
    rw [hm] at this
    cases this
    rfl
  rw [h1] at hc
  rw [e]
  have hn : n ∈ order := (hcp.all n).2 ⟨k, kd, t, td, hc⟩
  rcases g2.filled n hn with f1 | ⟨j, f1, o, s1, s2, bs, f2, f3, -, f4⟩
  · exact absurd f1 (hst.read_some hok hn)
  obtain ⟨j1, j2, j3, j4, j5, j6, j7, j8, rows, j9, -, -⟩ := hst.job hok hS htemps hc f1
  obtain ⟨k', ch, rs, lines, t1, t2, r1, r2, r3⟩ := d3 n (d1 ▸ hc.planned)
  obtain ⟨ka, qa, ta, tda, rowsa, a1, a2, a3, a4, a5, -, -, -, -, -, -, -, a13⟩ := readTable_some f1
  obtain ⟨qb, tb, rowsb, b1, b2, b3, b4, b5, b6⟩ := readRows_some r1
  rw [a1] at b1; cases b1
  rw [a2] at b2; cases b2
  rw [a3] at b3; cases b3
  rw [a4] at b4; cases b4
  rw [a5] at b5; cases b5
  have hrows : rs = j.rows := by rw [b6, a13]
  subst hrows
  have hlen : ∀ q ∈ j.rows, q.length = t.columns.length := by
    intro q hq
    rw [j9] at hq
    obtain ⟨q', -, rfl⟩ := List.mem_map.1 hq
    simp
  have hsteady := chain_steady j3 fun f hf => by
    cases hfs : dget C.filters n with
    | none => rw [hfs] at hf; simp at hf
    | some fs => rw [hfs] at hf; exact hset fs (dget_some_mem hfs) f hf
  rw [timesWritten_eq e3 hc.planned] at r3
  obtain ⟨c1, c2⟩ := c50_one_line_per_copy j3 j8 hlen r3
  have c1 := c1 rfl
  obtain ⟨m1, m2, m3, -⟩ := outPlan_ok f2
  rw [j2] at m1 m2
  rw [j6] at m3
  have hjok : JobOK D.world j := ⟨t.columns, _, j3, j8, hlen⟩
  have hfit := run_fitting hjok f2 (List.prefix_refl _) f3 (written := [bs.flatten]) (by simp) bs.flatten (by simp)
  rw [j2] at hfit
  have w1 := f3.firstCopies (List.prefix_refl _)
  have w2 : bs.flatten.length = j.rows.length * timesWritten C p n := by rw [f3.length, copies_length, m3]
  rw [j1, j4, j2] at f4
  obtain ⟨stored, z1, z2⟩ := c61_added f4 hfit (hadd.imp id fun e => by unfold target; split <;> exact e)
  refine ⟨lines, stored, r2, by rw [← j1] at z1 ⊢; exact z1, ?_⟩
  rw [m3] at w1
  have hwr : ∀ c, c ∈ o.colsOut ↔ c ∈ j.input.chain.colsOut ∧ c ∉ (target D kd td).computed := by
    intro c
    rw [m2]
    simp [writtenColumns]
  have hpair : List.Forall₂ (fun (line : Row) (out : List Val) => dkeys line = j.input.chain.colsOut ∧
      ∀ c ∈ o.colsOut, valueOf o.colsOut out c = some (shiftVal (dget ((dget offs kd).getD []) c) (line.get c)))
      lines bs.flatten := by
    refine firstCopies_forall₂ (fun q i s3 t3 line s4 t4 out hl ho => ?_) c2 w1 c1 w2
    obtain ⟨hq, ho⟩ := ho
    have hcopy := plan_isCopy j3 j8 f2 (hlen q hq) ho
    rw [j2, j5, j6, j7, ← m2] at hcopy
    obtain ⟨out', hl1, hl2, hl3⟩ := hl
    refine ⟨hl2, fun c hcc => ?_⟩
    obtain ⟨v, v1, v2⟩ := copies_agree (hsteady q) (fun c hc => ((hwr c).1 hc).1) hcopy hl1 c hcc
    rw [v2]
    congr 2
    unfold Row.get
    rw [zip_of_maps hl2 hl3, dget_zip, v1]
    rfl
  have hkeys : ∀ line ∈ lines, dkeys line = j.input.chain.colsOut := fun line hl => by
    obtain ⟨out, -, ho⟩ := forall₂_left hpair hl
    exact ho.1
  refine ⟨fun line hl => ?_, forall₂_trans (fun line out row hl hr => ⟨hr.1, fun c hc hg => ?_, fun c hc hg => ?_, fun c hc hg hn => ?_⟩) hpair z2⟩
  · rw [hkeys line hl]
    exact loop_colsOut (constructFilter_ok j3).2
  · rw [hl.1] at hc
    exact (hfit.2.1 c ((hwr c).2 ⟨hc, hg⟩)).1
  · rw [hl.1] at hc
    have hm := (hwr c).2 ⟨hc, hg⟩
    have := hr.2.1 c hm
    rw [hl.2 c hm] at this
    exact (Option.some.inj this).symm
  · rw [hl.1] at hn
    exact hr.2.2 c hc hg fun hm => hn ((hwr c).1 hm).1

/-- C96. Without merging, if the table generates no columns, has those of the source table, and no column is omitted, what
is added to it is the file. -/
theorem c96_identical (hok : RunOK C D p) (h : (sample C D p S s).err = none)
    (hd : sampleDirectory C D p F s' = (F', none)) (hm : C.merge = false) :
    ∃ B : DbState, Begins C D p S B ∧ ∀ n k kd t td, Copied C D p (sample C D p S s).schema n k kd t td →
      strategyFor C p n = .error ∨ td.primaryKey = [] →
      (∀ fs, (n, fs) ∈ C.filters → ∀ f ∈ fs, FilterCfg.Settled f) → omitted (filtersOf C n) = [] →
      (target D kd td).computed = [] → td.columns = t.columns →
      ∃ lines, F' (fileOf n) = some lines ∧ (sample C D p S s).final kd = B kd ++ lines := by
  obtain ⟨B, shift, h1, h2, h3⟩ := c96_same_rows hok h hd
  refine ⟨B, h1, fun n k kd t td hc hs hf ho hg hcols => ?_⟩
  obtain ⟨lines, stored, g1, g2, g3, g4⟩ := h3 n k kd t td hc hs hf
  refine ⟨lines, g1, ?_⟩
  rw [g2]
  congr 1
  have htc : (target D kd td).columns = t.columns := by rw [← hcols]; unfold target; split <;> rfl
  have hnd := hok.srcColumns n t hc.source
  refine (forall₂_eq_of (fun line hl row ha => ?_) g4).symm
  have hk := g3 line hl
  rw [ho] at hk
  have hk : dkeys line = t.columns := by rw [hk]; simp
  have hk' : dkeys row = t.columns := by rw [ha.columns, hg, htc]; simp
  refine dict_ext (hk.trans hk'.symm) (hk ▸ hnd) fun c hcl => ?_
  have := ha.values c hcl (by rw [hg]; simp)
  rw [h2 hm kd c] at this
  rw [this]
  cases line.get c <;> simp [shiftVal]

/-- C96. If a plan of the planner is sampled without transformations, with creation of the tables, both outputs succeed,
and each created table holds exactly the lines of the file. -/
theorem c96_create (hok : RunOK C D p) (hpl : Plain C) (hcr : C.create = true)
    (hdia : D.dialect ≠ .generic ∨ C.strategy = .error) {cfg : PlannerConfig} (hex : ∀ x ∈ cfg.extraFks, x.Valid)
    (htg : [] ∉ dkeys cfg.targets) (hplan : plan D.fnmatch D.srcDb cfg = .ok p)
    (hdep : cfg.includeDependencies = true) (hign : cfg.ignoreFks = [])
    (hcirc : ∀ k, Named cfg.passthrough k → ¬ Relation.TransGen (DbRef D.srcDb) k k)
    (hself : ∀ n ∈ dkeys p.queries, D.fnmatch n n = true) (hsrc : SourceOK D) (hfree : DestinationFree C D p S) :
    (sample C D p S s).err = none ∧ ∃ F', sampleDirectory C D p F s' = (F', none) ∧
      ∀ n ∈ dkeys p.queries, ∃ kd, DestOf C.remap n kd ∧ F' (fileOf n) = some ((sample C D p S s).final kd) := by
  obtain ⟨h1, Smp, h2, h3⟩ := c59_create_and_fill (s := s) hok hpl hcr hdia hex htg hplan hdep hign hcirc hself hsrc hfree
  obtain ⟨F', Smp', g1, g2, g3, -⟩ := c66_planned (F := F) (s := s') ⟨hok.src, hok.srcColumns, hok.plan, hok.compactNames⟩
    hpl hex htg hplan hself
  refine ⟨h1, F', g1, fun n hn => ?_⟩
  obtain ⟨k, kd, t, td, a1, a2, a3, -, -, a4⟩ := h3 n hn
  obtain ⟨k', t', b1, b2, b3⟩ := g3 n hn
  rw [a1] at b1; cases b1
  have ht : t' = t := by
    have := dget_of_mem hok.src.names_nodup a2
    rw [dget_of_mem hok.src.names_nodup b2] at this
    cases this; rfl
  subst ht
  obtain ⟨T, hI, hpi, hT⟩ := planned_from hok.src hex htg hplan
  obtain ⟨ign, pass, T₁, T₂, found, ord, hp⟩ := planning hI hpi
  have hS := isSample_unique (hp.shape.planOK (Ts := dbTables D.srcDb) hp.ok fun k hk => by
    obtain ⟨t, ht⟩ := Option.isSome_iff_exists.1 (hp.isSome_iff.1 (hp.shape.inT hp.ok hk))
    have hm := hT k t (dget_some_mem ht)
    have hk' : (t.schema, t.name) = k := str_inj (k := (t.schema, t.name)) (hok.src.no_dot _ t hm) (hp.nodot hk)
      (hok.src.name_eq _ t hm).symm
    rw [dbTables_get hok.src (t := t) (k := k) hm hk']
    rfl) (hp.shape.acyclic hp.ok) h2 g2
  obtain ⟨q, hq⟩ := Option.isSome_iff_exists.1 (dget_isSome_iff.2 hn)
  exact ⟨kd, a3, by rw [b3, a4, hS k q ⟨n, dget_some_mem hq, a1⟩]⟩

/-- C96. What concerns the destination database does not matter for a directory. -/
theorem c96_directory (remap : Str → Str) (strategy : Strategy) (merge truncate create : Bool) :
    sampleDirectory { C with remap := remap, strategy := strategy, merge := merge, truncate := truncate, create := create } D p F s =
      sampleDirectory C D p F s := by
  have hc : ∀ (mult : Dict Str (List Str)) read (names : List Str) (F : Files) (s : σ),
      copyFiles { C with remap := remap, strategy := strategy, merge := merge, truncate := truncate, create := create } D mult
        read names F s = copyFiles C D mult read names F s := by
    intro mult read names
    induction names with
    | nil => intro F s; rfl
    | cons n ns ih =>
      intro F s
      unfold copyFiles
      simp only [ih]
  unfold sampleDirectory
  simp only [hc]
  rfl

/-! ### Examples -/

/-- Errors, and the contents of the destination and of the file of each table. -/
def soShow (R : RunResult) (x : Files × Option RunErr) : Option RunErr × Option RunErr × List (List Row × Option (List Row)) :=
  (R.err, x.2, [(R.final (str! "m", str! "u"), x.1 (str! "s.u.json")), (R.final (str! "m", str! "o"), x.1 (str! "s.o.json"))])

/-- Compacted and multiplied keys. -/
def soConfig : RunConfig := { remap := dxRemap, mult := { multiplier := 2, extraColumns := [(str! "s.o", [str! "uid"])] }, compact := { primaryKeys := true, startKey := 5 } }

theorem so_truncated : soShow (sample { soConfig with truncate := true } (rxSetting rxDst) exPlan rxBefore 0)
      (sampleDirectory { soConfig with truncate := true } (rxSetting rxDst) exPlan lxFiles 7) =
    (none, none, [([[(str! "id", .int 10)], [(str! "id", .int 11)]], some [[(str! "id", .int 10)], [(str! "id", .int 11)]]),
      ([[(str! "id", .int 10), (str! "uid", .int 10)], [(str! "id", .int 11), (str! "uid", .int 11)]],
        some [[(str! "id", .int 10), (str! "uid", .int 10)], [(str! "id", .int 11), (str! "uid", .int 11)]])]) := by
  decide +kernel

/-- C96 on an example: both outputs succeed, so that the theorem applies, and the rows are the same. -/
theorem c96_example : ∃ F', sampleDirectory { soConfig with truncate := true } (rxSetting rxDst) exPlan lxFiles 7 = (F', none) ∧
    (sample { soConfig with truncate := true } (rxSetting rxDst) exPlan rxBefore 0).err = none ∧
    ∃ (B : DbState) (shift : Key → Str → Option Int),
      Begins { soConfig with truncate := true } (rxSetting rxDst) exPlan rxBefore B ∧ (∀ kd c, shift kd c = none) ∧
      ∀ n k kd t td, Copied { soConfig with truncate := true } (rxSetting rxDst) exPlan
          (sample { soConfig with truncate := true } (rxSetting rxDst) exPlan rxBefore 0).schema n k kd t td →
        ∃ lines stored, F' (fileOf n) = some lines ∧
          (sample { soConfig with truncate := true } (rxSetting rxDst) exPlan rxBefore 0).final kd = B kd ++ stored ∧
          List.Forall₂ (Agrees (target (rxSetting rxDst) kd td) (shift kd)) lines stored := by
  have h := so_truncated
  simp only [soShow, Prod.mk.injEq] at h
  refine ⟨_, Prod.ext rfl h.2.1, h.1, ?_⟩
  obtain ⟨B, shift, h1, h2, h3⟩ := c96_same_rows (C := { soConfig with truncate := true }) (rx_ok rfl) h.1 (Prod.ext rfl h.2.1)
  refine ⟨B, shift, h1, h2 rfl, fun n k kd t td hc => ?_⟩
  obtain ⟨lines, stored, g1, g2, -, g3⟩ := h3 n k kd t td hc (.inl (by simp [strategyFor, soConfig])) fun _ h => (nomatch h)
  exact ⟨lines, stored, g1, g2, g3⟩

/-- C96 on an example: both tables are created in an empty database. -/
theorem so_create : ∃ p F', plan dxEq (axSetting dxEq).srcDb axCfg = .ok p ∧
    sampleDirectory { remap := dxRemap, create := true } (axSetting dxEq) p lxFiles 7 = (F', none) ∧
    ∀ n ∈ [str! "s.u", str! "s.o"], ∃ kd, DestOf dxRemap n kd ∧ F' (fileOf n) =
      some ((sample { remap := dxRemap, create := true } (axSetting dxEq) p (fun _ => []) 0).final kd) := by
  have hn := axNames
  cases h : plan dxEq (axSetting dxEq).srcDb axCfg with
  | error e => rw [h] at hn; cases hn
  | ok p =>
    rw [h] at hn
    have hn : dkeys p.queries = [str! "s.u", str! "s.o"] := hn
    obtain ⟨-, F', h1, h2⟩ := c96_create (C := { remap := dxRemap, create := true }) (D := axSetting dxEq) (p := p)
      (S := fun _ => []) (s := 0) (F := lxFiles) (s' := 7) (ax_ok rfl hn)
      ⟨fun _ _ h => (nomatch h), ⟨rfl, rfl⟩, fun _ _ h => (nomatch h), by decide, rfl⟩ rfl (.inl (by decide)) (cfg := axCfg)
      (fun _ h => nomatch h) (by decide) h (by decide) rfl (fun _ hk => ax_nocircle hk)
      (fun n _ => by simp [axSetting, dxEq]) ax_source (ax_free rfl hn)
    exact ⟨p, F', rfl, h1, fun n hm => h2 n (hn ▸ hm)⟩

/-- C96 on an example: with merging the keys are moved behind those that exist. -/
theorem so_merged : soShow (sample { soConfig with merge := true } (rxSetting rxDst) exPlan rxBefore 0)
      (sampleDirectory { soConfig with merge := true } (rxSetting rxDst) exPlan lxFiles 7) =
    (none, none, [([[(str! "id", .int 5)], [(str! "id", .int 16)], [(str! "id", .int 17)]],
        some [[(str! "id", .int 10)], [(str! "id", .int 11)]]),
      ([[(str! "id", .int 9), (str! "uid", .int 5)], [(str! "id", .int 20), (str! "uid", .int 16)],
          [(str! "id", .int 21), (str! "uid", .int 17)]],
        some [[(str! "id", .int 10), (str! "uid", .int 10)], [(str! "id", .int 11), (str! "uid", .int 11)]])]) := by
  decide +kernel

/-- Generated values differ, even from the same state of the generators: tables are written to a database in the order of their foreign keys,
to a directory in the order of the plan. -/
theorem c96_generated_differ : soShow
      (sample { remap := dxRemap, truncate := true, filters := [(str! "s.o", [.simple (.randomInt [str! "uid"] 0 9)]), (str! "s.u", [.simple (.randomInt [str! "id"] 0 9)])] }
        (rxSetting rxDst) ⟨exPlan.queries.reverse, []⟩ rxBefore 0)
      (sampleDirectory { remap := dxRemap, truncate := true, filters := [(str! "s.o", [.simple (.randomInt [str! "uid"] 0 9)]), (str! "s.u", [.simple (.randomInt [str! "id"] 0 9)])] }
        (rxSetting rxDst) ⟨exPlan.queries.reverse, []⟩ lxFiles 0) =
    (none, none, [([[(str! "id", .int 0)]], some [[(str! "id", .int 1)]]),
      ([[(str! "id", .int 7), (str! "uid", .int 1)]], some [[(str! "id", .int 7), (str! "uid", .int 0)]])]) := by
  decide +kernel

end Subsetter.Props
