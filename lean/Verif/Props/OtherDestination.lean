import Verif.Proofs.OtherDestination
import Verif.Props.SameOutput

/-
Property C97: the destination does not influence which rows are written.
-/
namespace Subsetter.Props
open Subsetter Spec

variable {σ : Type} {C C' : RunConfig} {D D' : Setting σ} {p : Plan} {S S' : DbState} {s s' : σ}

/-- C97. Two runs without an error that read the same source and transform rows in the same way add to a table, if they only
add rows, equally many rows in the same order, and the values of each column sent to both have the same origin.  Destinations,
their contents, names, strategies, dialects and buffer sizes may differ. -/
theorem c97_same_rows (hs : SameSource C C' D D') (hok : RunOK C D p) (hok' : RunOK C' D' p)
    (h : (sample C D p S s).err = none) (h' : (sample C' D' p S' s').err = none) :
    ∃ (B B' : DbState) (shift shift' : Key → Str → Option Int), Begins C D p S B ∧ Begins C' D' p S' B' ∧
      (C.merge = false → ∀ kd c, shift kd c = none) ∧ (C'.merge = false → ∀ kd c, shift' kd c = none) ∧
      ∀ n k kd t td kd' td', Copied C D p (sample C D p S s).schema n k kd t td →
        Copied C' D' p (sample C' D' p S' s').schema n k kd' t td' →
        strategyFor C p n = .error ∨ td.primaryKey = [] → strategyFor C' p n = .error ∨ td'.primaryKey = [] →
        (∀ fs, (n, fs) ∈ C.filters → ∀ f ∈ fs, FilterCfg.Settled f) →
        ∃ stored stored', (sample C D p S s).final kd = B kd ++ stored ∧
          (sample C' D' p S' s').final kd' = B' kd' ++ stored' ∧
          List.Forall₂ (SameRow (target D kd td) (target D' kd' td') (shift kd) (shift' kd')
            (t.columns.filter fun c => decide (c ∉ omitted (filtersOf C n)))) stored stored' := by
  obtain ⟨l, T, mult, compact, mat, temps, B, offs, a1, a2, a3, a4⟩ := run_adds hok h
  obtain ⟨l', T', mult', compact', mat', temps', B', offs', b1, b2, b3, b4⟩ := run_adds hok' h'
  obtain ⟨rfl, rfl, rfl, rfl⟩ := a1.unique hs b1
  refine ⟨B, B', fun kd c => dget ((dget offs kd).getD []) c, fun kd c => dget ((dget offs' kd).getD []) c, a2, b2,
    fun hm kd c => by rw [a3 hm]; rfl, fun hm kd c => by rw [b3 hm]; rfl, fun n k kd t td kd' td' hc hc' ha ha' hset => ?_⟩
  obtain ⟨q, rows, ch, outs, stored, s1, c1, c2, c3, c4, c5, c6, c7, c8⟩ := a4 n k kd t td hc ha
  obtain ⟨q', rows', ch', outs', stored', s1', d1, d2, d3, -, d5, d6, d7, d8⟩ := b4 n k kd' t td' hc' ha'
  rw [c1] at d1; cases d1
  rw [hs.engine, hs.le, hs.compact, hs.src, hs.reopen, c2] at d2; cases d2
  have hfo : filtersOf C' n = filtersOf C n := by unfold filtersOf; rw [hs.filters]
  rw [hs.world, hfo, c3] at d3; cases d3
  have htw : timesWritten C' p n = timesWritten C p n := by unfold timesWritten; rw [hs.mult]
  rw [htw] at d5
  rw [htw, hs.world] at d6
  refine ⟨stored, stored', c8, d8, ?_⟩
  have hsteady := chain_steady c3 fun f hf => by
    unfold filtersOf at hf
    cases hfs : dget C.filters n with
    | none => rw [hfs] at hf; simp at hf
    | some fs => rw [hfs] at hf; exact hset fs (dget_some_mem hfs) f hf
  have hco : ch.colsOut = t.columns.filter fun c => decide (c ∉ omitted (filtersOf C n)) := loop_colsOut (constructFilter_ok c3).2
  have hw : ∀ {D0 : Setting σ} {kd0 : Key} {td0 : TableMeta} {c : Str}, c ∈ writtenColumns ch (target D0 kd0 td0) ↔
      c ∈ (t.columns.filter fun c => decide (c ∉ omitted (filtersOf C n))) ∧ c ∉ (target D0 kd0 td0).computed := by
    intro D0 kd0 td0 c
    unfold writtenColumns
    rw [hco, List.mem_filter, decide_eq_true_eq]
  have hpair : List.Forall₂ (fun (out out' : List Val) => ∀ c ∈ writtenColumns ch (target D kd td),
      c ∈ writtenColumns ch (target D' kd' td') → ∃ v,
        valueOf (writtenColumns ch (target D kd td)) out c = some (shiftVal (dget ((dget offs kd).getD []) c) v) ∧
        valueOf (writtenColumns ch (target D' kd' td')) out' c = some (shiftVal (dget ((dget offs' kd').getD []) c) v))
      outs outs' := by
    refine firstCopies_forall₂ (fun r i s3 t3 out s4 t4 out' ho ho' c hc1 hc2 => ?_) c6 d6
      (by rw [List.length_map]; exact c5) (by rw [List.length_map]; exact d5)
    obtain ⟨f, h1, -, h2⟩ := ho
    obtain ⟨f', h3, -, h4⟩ := ho'
    have := hsteady _ s3 s4 f f' t3 t4 h1 h3
    subst this
    obtain ⟨v, g1, g2⟩ := h2 c hc1
    obtain ⟨v', g3, g4⟩ := h4 c hc2
    rw [g1] at g3; cases g3
    exact ⟨_, by rw [g2, outVal_shift], by rw [g4, outVal_shift]⟩
  have hpair2 := forall₂_trans (P := fun (out : List Val) (row' : Row) => ∃ out', StoredAs (target D' kd' td')
    (writtenColumns ch (target D' kd' td')) out' row' ∧ ∀ c ∈ writtenColumns ch (target D kd td),
      c ∈ writtenColumns ch (target D' kd' td') → ∃ v,
        valueOf (writtenColumns ch (target D kd td)) out c = some (shiftVal (dget ((dget offs kd).getD []) c) v) ∧
        valueOf (writtenColumns ch (target D' kd' td')) out' c = some (shiftVal (dget ((dget offs' kd').getD []) c) v))
    (fun out out' row' e1 e2 => ⟨out', e2, e1⟩) hpair d7
  refine forall₂_trans (fun row out row' e1 e2 => ?_) c7.flip hpair2
  obtain ⟨out', e2, e3⟩ := e2
  refine ⟨e1.1, e2.1, fun c m1 m2 m3 => ?_, fun c hcc hg ho => e1.2.2 c hcc hg fun hm => ho (hw.1 hm).1,
    fun c hcc hg ho => e2.2.2 c hcc hg fun hm => ho (hw.1 hm).1⟩
  have w1 : c ∈ writtenColumns ch (target D kd td) := hw.2 ⟨m1, m2⟩
  have w2 : c ∈ writtenColumns ch (target D' kd' td') := hw.2 ⟨m1, m3⟩
  obtain ⟨v, g1, g2⟩ := e3 c w1 w2
  have k1 := e1.2.1 c w1
  have k2 := e2.2.1 c w2
  rw [g1] at k1
  rw [g2] at k2
  exact ⟨v, (Option.some.inj k1).symm, (Option.some.inj k2).symm⟩

/-- C97. Without merging, the rows added are identical if the tables have the same columns, generate the same ones and have the
same defaults; in particular under other names. -/
theorem c97_identical (hs : SameSource C C' D D') (hok : RunOK C D p) (hok' : RunOK C' D' p)
    (h : (sample C D p S s).err = none) (h' : (sample C' D' p S' s').err = none) (hm : C.merge = false) (hm' : C'.merge = false) :
    ∃ B B' : DbState, Begins C D p S B ∧ Begins C' D' p S' B' ∧
      ∀ n k kd t td kd' td', Copied C D p (sample C D p S s).schema n k kd t td →
        Copied C' D' p (sample C' D' p S' s').schema n k kd' t td' →
        strategyFor C p n = .error ∨ td.primaryKey = [] → strategyFor C' p n = .error ∨ td'.primaryKey = [] →
        (∀ fs, (n, fs) ∈ C.filters → ∀ f ∈ fs, FilterCfg.Settled f) → td.columns.Nodup → td'.columns = td.columns →
        (target D' kd' td').computed = (target D kd td).computed →
        (∀ c ∈ td.columns, (target D' kd' td').default c = (target D kd td).default c) →
        ∃ stored, (sample C D p S s).final kd = B kd ++ stored ∧ (sample C' D' p S' s').final kd' = B' kd' ++ stored := by
  obtain ⟨B, B', shift, shift', h1, h2, h3, h4, h5⟩ := c97_same_rows hs hok hok' h h'
  refine ⟨B, B', h1, h2, fun n k kd t td kd' td' hc hc' ha ha' hset hnd hcols hcomp hdef => ?_⟩
  obtain ⟨stored, stored', g1, g2, g3⟩ := h5 n k kd t td kd' td' hc hc' ha ha' hset
  refine ⟨stored, g1, ?_⟩
  rw [g2]
  congr 1
  refine (forall₂_eq_of (fun row _ row' e => ?_) g3).symm
  have htc : ∀ {D0 : Setting σ} {kd0 : Key} {td0 : TableMeta}, (target D0 kd0 td0).columns = td0.columns := by
    intro D0 kd0 td0; unfold target; split <;> rfl
  obtain ⟨e1, e2, e3, e4, e5⟩ := e
  rw [htc] at e1 e2 e4 e5
  rw [hcols, hcomp, ← e1] at e2
  refine dict_ext e2.symm (by rw [e1]; exact hnd.filter _) fun c hcr => ?_
  rw [e1, List.mem_filter] at hcr
  obtain ⟨m1, m2⟩ := hcr
  have m2 := of_decide_eq_true m2
  by_cases ho : c ∈ t.columns.filter fun c => decide (c ∉ omitted (filtersOf C n))
  · obtain ⟨v, v1, v2⟩ := e3 c ho m2 (by rw [hcomp]; exact m2)
    rw [v1, v2, h3 hm, h4 hm']
  · rw [e4 c m1 m2 ho, e5 c (by rw [hcols]; exact m1) (by rw [hcomp]; exact m2) ho, hdef c m1]

/-! ### An example -/

/-- Two tables of the destination. -/
def odShow (R : RunResult) (s : Str) : Option RunErr × List (List Row) := (R.err, [R.final (s, str! "u"), R.final (s, str! "o")])

/-- Keys are compacted; existing tables of another schema are truncated and filled. -/
def odConfig : RunConfig := { remap := dxRemap, truncate := true, compact := { primaryKeys := true, startKey := 5 } }

/-- The same, but tables are created, under the names they have in the source. -/
def odConfig' : RunConfig := { remap := id, create := true, compact := { primaryKeys := true, startKey := 5 } }

/-- An empty destination of another kind. -/
def odSetting : Setting Int := { rxSetting [] with dialect := .mysql, buffer := 3 }

theorem od_filled : odShow (sample odConfig (rxSetting rxDst) exPlan rxBefore 0) (str! "m") =
    (none, [[[(str! "id", .int 5)]], [[(str! "id", .int 5), (str! "uid", .int 5)]]]) := by decide +kernel

theorem od_created : odShow (sample odConfig' odSetting exPlan (fun _ => []) 7) (str! "s") =
    (none, [[[(str! "id", .int 5)]], [[(str! "id", .int 5), (str! "uid", .int 5)]]]) := by decide +kernel

/-- C97 on an example: the hypotheses are met. -/
theorem c97_example : ∃ B B' : DbState, Begins odConfig (rxSetting rxDst) exPlan rxBefore B ∧
    Begins odConfig' odSetting exPlan (fun _ => []) B' ∧
    ∀ n k kd t td kd' td', Copied odConfig (rxSetting rxDst) exPlan
        (sample odConfig (rxSetting rxDst) exPlan rxBefore 0).schema n k kd t td →
      Copied odConfig' odSetting exPlan
        (sample odConfig' odSetting exPlan (fun _ => []) 7).schema n k kd' t td' →
      td.columns.Nodup → td'.columns = td.columns →
      ∃ stored, (sample odConfig (rxSetting rxDst) exPlan rxBefore 0).final kd = B kd ++ stored ∧
        (sample odConfig' odSetting exPlan (fun _ => []) 7).final kd' = B' kd' ++ stored := by
  have h := od_filled
  have h' := od_created
  simp only [odShow, Prod.mk.injEq] at h h'
  have hok : RunOK odConfig (rxSetting rxDst) exPlan := rx_ok rfl
  have hok' : RunOK odConfig' odSetting exPlan :=
    ⟨hok.src, rxDb_ok (by decide) (by decide), fun a b ⟨_, _, _, h, _⟩ => (nomatch h), hok.srcColumns,
      fun _ n h => (nomatch h), hok.plan, .nil⟩
  obtain ⟨B, B', h1, h2, h3⟩ := c97_identical (C := odConfig) (C' := odConfig') (D := rxSetting rxDst) (D' := odSetting) (S := rxBefore) (S' := fun _ => []) (s := 0) (s' := 7)
    ⟨rfl, rfl, rfl, rfl, rfl, rfl, rfl, rfl, rfl, rfl, rfl⟩ hok hok' h.1 h'.1 rfl rfl
  refine ⟨B, B', h1, h2, fun n k kd t td kd' td' hc hc' hnd hcols => ?_⟩
  exact h3 n k kd t td kd' td' hc hc' (.inl rfl) (.inl rfl) (fun _ h => (nomatch h)) hnd hcols
    (by unfold target; split <;> split <;> rfl) (fun c _ => by unfold target; split <;> split <;> rfl)

end Subsetter.Props
