import Verif.Proofs.RunErrors
import Verif.Props.Run

/-
Property C63: what a run that is refused has done.
-/
namespace Subsetter.Props
open Subsetter Spec

variable {σ : Type} {C : RunConfig} {D : Setting σ} {p : Plan} {S : DbState} {s : σ}

/-- The error is found in the configuration, the schemas or the names before data is touched: errors of loading, of
filters, of multiplicity, of remapping, of creating tables, and circles of foreign keys. -/
def FoundEarly : RunErr → Prop
  | .load | .filter _ | .filterName | .mult _ => True
  | .dest .badName | .dest (.duplicate _) | .dest .cycle | .dest .fuel => True
  | _ => False

/-- C63. If a run fails with one of these errors, no row was deleted or written.  Missing: compaction,
plans with circles and missing columns (`c63_compact_late`, `c63_plan_late`, `c63_columns_late`,
`c63_merge_late`). -/
theorem c63_early_partial {e : RunErr} (h : (sample C D p S s).err = some e) (he : FoundEarly e) :
    (sample C D p S s).hist = [S] ∧ (sample C D p S s).writes = [] := by
  rcases sample_cases C D p S s with ⟨h1, h2, -⟩ | ⟨r, db, x, order, states, h1, h2, h3, h4, h5, h6, h7, e', h8, h9⟩ |
    ⟨r, db, x, order, states, offs, compact, mat, temps, hst, h1, h2⟩
  · exact ⟨h2, h1⟩
  · rw [h] at h8; cases h8
    rcases h9 with ⟨e', rfl, h9⟩ | ⟨e', rfl⟩ | ⟨e', rfl⟩
    · unfold prepareStep at h9
      split at h9
      · rw [(prepare_error h9 (planned_dest h1)).1] at he
        cases he
      · cases h9
    · cases he
    · cases he
  · rw [h] at h2
    rcases copyAll_error h2 with ⟨n, -, h3⟩ | ⟨e', rfl⟩
    · rcases readTable_error hst.start h3 with ⟨e', rfl⟩ | ⟨rfl, -⟩
      · cases he
      · cases he
    · cases he

/-- C63. In particular the filters configured are checked before anything is deleted: no run fails in
building a filter later. -/
theorem c63_filters {e : FilterErr} (h : (sample C D p S s).err = some (.filter e)) :
    (sample C D p S s).hist = [S] ∧ (sample C D p S s).writes = [] := c63_early_partial h trivial

/-- C63. Every other error is found late: a destination or referred table that is missing when merging, compaction,
the plan, or what happens while rows are written. -/
theorem c63_late {e : RunErr} (h : (sample C D p S s).err = some e) (he : ¬ FoundEarly e) :
    e = .dest .keyError ∨ (∃ e', e = .compact e') ∨ (∃ e', e = .exec e') ∨ ∃ e', e = .dest (.output e') := by
  match e, he with
  | .load, he | .filterName, he => exact absurd trivial he
  | .filter _, he | .mult _, he => exact absurd trivial he
  | .dest .badName, he | .dest (.duplicate _), he | .dest .cycle, he | .dest .fuel, he => exact absurd trivial he
  | .dest .keyError, _ => exact .inl rfl
  | .compact e', _ => exact .inr (.inl ⟨e', rfl⟩)
  | .exec e', _ => exact .inr (.inr (.inl ⟨e', rfl⟩))
  | .dest (.output e'), _ => exact .inr (.inr (.inr ⟨e', rfl⟩))

/-! ### Counterexamples -/

/-- C63 fails for compaction: a compacted column within a foreign key is refused when the tables are empty. -/
theorem c63_compact_late :
    rxShow (sample { remap := dxRemap, truncate := true, compact := { primaryKeys := true, columns := [(str! "s.o", [str! "uid"])] } }
      (rxSetting rxDst) exPlan rxBefore 0) = (some (.compact .withinForeignKey), [[], [], []]) := by decide +kernel

/-- The same for a name without schema. -/
theorem c63_compact_name_late :
    rxShow (sample { remap := dxRemap, truncate := true, compact := { columns := [(str! "o", [str! "id"])] } }
      (rxSetting rxDst) exPlan rxBefore 0) = (some (.compact .badName), [[], [], []]) := by decide +kernel

/-- A plan in which users are sampled by orders and orders by users. -/
def rxCycle : Plan := ⟨[(str! "s.u", exUQuery), (str! "s.o", .statement (.select (.mk none ⟨str! "s", str! "o", false⟩ none none (some [⟨⟨str! "s", str! "u", true⟩, [str! "uid"], [str! "id"], true⟩]) true 0)))], []⟩

/-- C63 fails for a plan with a circle. -/
theorem c63_plan_late :
    rxShow (sample { remap := dxRemap, truncate := true } (rxSetting rxDst) rxCycle rxBefore 0) =
      (some (.exec .cycle), [[], [], []]) := by decide +kernel

/-- C63 fails for columns missing in the destination: they are noticed when the tables are empty. -/
theorem c63_columns_late :
    rxShow (sample { remap := dxRemap, truncate := true }
      (rxSetting [(str! "m.o", { rxO (str! "m") with columns := [str! "id"], foreignKeys := [] }), (str! "m.u", rxU (str! "m"))])
      exPlan rxBefore 0) =
      (some (.dest (.output (.missingColumns [str! "uid"]))), [[], [], [[(str! "oid", .int 9)]]]) := by
  decide +kernel

/-- C63 fails when merging into a database without one of the tables. -/
theorem c63_merge_late :
    rxShow (sample { remap := dxRemap, truncate := true, merge := true } (rxSetting [(str! "m.u", rxU (str! "m"))])
      exPlan rxBefore 0) =
      (some (.dest .keyError), [[], [[(str! "id", .int 9), (str! "uid", .int 5)]], [[(str! "oid", .int 9)]]]) := by
  decide +kernel

/-- The hypotheses of `c63_early_partial` are met: a filter for a column that does not exist. -/
theorem rx_filter : (match (sample { remap := dxRemap, truncate := true, filters := [(str! "s.u", [.simple (.null [str! "name"])])] } (rxSetting rxDst) exPlan rxBefore 0).err with
    | some (.filter _) => true
    | _ => false) = true := by decide +kernel

/-- A run that fails at orders, for `c62_prefix`: order 7 exists already, the user has been written. -/
theorem rx_fails : rxShow (sample { remap := dxRemap } (rxSetting rxDst) exPlan
      (fun k => if k = (str! "m", str! "o") then [[(str! "id", .int 7), (str! "uid", .null)]] else []) 0) =
    (some (.dest (.output .integrity)), [[[(str! "id", .int 1)]], [[(str! "id", .int 7), (str! "uid", .null)]], []]) := by
  decide +kernel

end Subsetter.Props
