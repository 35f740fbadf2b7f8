import Verif.Proofs.NoConflict
import Verif.Props.Repeat

/-
Property C100: conflict strategies matter only if there are conflicts.
-/
namespace Subsetter.Props
open Subsetter Spec

variable {σ : Type} {C : RunConfig} {D : Setting σ} {p : Plan} {S : DbState} {s : σ}

/-- C100. A run that succeeds with the strategy `error` goes the same way with any strategy: the same contents at every commit, the
same batches and no error. -/
theorem c100_strategy (st : Strategy) (hok : RunOK C D p) (hC : C.strategy = .error) (hd : D.dialect ≠ .generic)
    (hg : st = .replace → D.dialect = .sqlite → ∀ n k kd t td, Copied C D p (sample C D p S s).schema n k kd t td →
      ∀ c ∈ td.columns, c ∉ (target D kd td).computed) (h : (sample C D p S s).err = none) :
    sample { C with strategy := st } D p S s = sample C D p S s :=
  sample_any hok hC hd hg h

/-- C100. The same on destinations with unique constraints beside primary keys. -/
theorem c100_unique (st : Strategy) (hok : RunOK C D p) (hC : C.strategy = .error) (hd : D.dialect ≠ .generic)
    (hg : st = .replace → D.dialect = .sqlite → ∀ n k kd t td, Copied C D p (sampleUnique C D p S s).schema n k kd t td →
      ∀ c ∈ td.columns, c ∉ (target D kd td).computed) (h : (sampleUnique C D p S s).err = none) :
    sampleUnique { C with strategy := st } D p S s = sampleUnique C D p S s :=
  sampleUnique_any hok hC hd hg h

/-! ### Examples -/

/-- The hypotheses are met by a run into a database that has other rows, and the conclusion by all strategies. -/
theorem c100_example (st : Strategy) : RunOK (rtC .error) rtSetting exPlan ∧ (rtC .error).strategy = .error ∧
    rtSetting.dialect ≠ .generic ∧ (∀ kd td, (target rtSetting kd td).computed = []) ∧
    (sample (rtC .error) rtSetting exPlan rxBefore 0).hist.length = 5 ∧
    rxShow (sample (rtC st) rtSetting exPlan rxBefore 0) = (none, [[[(str! "id", .int 5)], [(str! "id", .int 2)], [(str! "id", .int 3)]],
      [[(str! "id", .int 9), (str! "uid", .int 5)], [(str! "id", .int 14), (str! "uid", .int 2)], [(str! "id", .int 15), (str! "uid", .int 2)]],
      [[(str! "oid", .int 9)]]]) ∧
    rxShow (sampleUnique (rtC st) rtSetting exPlan rxBefore 0) = rxShow (sample (rtC .error) rtSetting exPlan rxBefore 0) := by
  refine ⟨rt_ok .error, rfl, by decide, fun kd td => by unfold target; split <;> rfl, by decide +kernel, ?_, ?_⟩ <;>
    cases st <;> decide +kernel

/-- With a conflict the strategies differ, and `error` fails; see also `c98_example`. -/
theorem c100_conflict : (sample (rtC .error) rtSetting exPlan rtBefore 0).err = some (.dest (.output .integrity)) ∧
    (sample (rtC .skip) rtSetting exPlan rtBefore 0).err = none ∧ (sample (rtC .replace) rtSetting exPlan rtBefore 0).err = none ∧
    (sample (rtC .skip) rtSetting exPlan rtBefore 0).final (str! "m", str! "o") ≠ (sample (rtC .replace) rtSetting exPlan rtBefore 0).final (str! "m", str! "o") := by
  decide +kernel

/-- A database with tables that have generated columns: on SQLite `replace` fails even without conflicts. -/
def ncSetting (d : Dialect) : Setting Int :=
  { rxSetting [(str! "m.o", { rxO (str! "m") with columns := [str! "id", str! "uid", str! "g"] }), (str! "m.u", rxU (str! "m"))] with
    dialect := d, computed := fun k => if k = (str! "m", str! "o") then [str! "g"] else [] }

theorem c100_generated : (sample { remap := dxRemap, strategy := .error } (ncSetting .sqlite) exPlan (fun _ => []) 0).err = none ∧
    (sample { remap := dxRemap, strategy := .skip } (ncSetting .sqlite) exPlan (fun _ => []) 0).err = none ∧
    (sample { remap := dxRemap, strategy := .replace } (ncSetting .sqlite) exPlan (fun _ => []) 0).err = some (.dest (.output .generatedColumn)) ∧
    (sample { remap := dxRemap, strategy := .replace } (ncSetting .mysql) exPlan (fun _ => []) 0).err = none := by
  decide +kernel

/-- On databases other than the three supported ones only `error` can be used. -/
theorem c100_generic : (sample { remap := dxRemap, strategy := .error } (ncSetting .generic) exPlan (fun _ => []) 0).err = none ∧
    (sample { remap := dxRemap, strategy := .skip } (ncSetting .generic) exPlan (fun _ => []) 0).err = some (.dest (.output .unsupported)) := by
  decide +kernel

end Subsetter.Props
