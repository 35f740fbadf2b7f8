import Verif.Proofs.Fresh
import Verif.Props.Run

/- Property C77. -/
namespace Subsetter.Props
open Subsetter Spec

variable {σ : Type} {C : RunConfig} {D : Setting σ} {p : Plan} {S S' : DbState} {s : σ}

/-- C77. A run that truncates does the same whatever the destination held: the same schema, the same batches, the same
error.  Unless it fails before changing anything, the tables it loads are the same afterwards; others are left alone. -/
theorem c77_fresh (hok : RunOK C D p) (ht : C.truncate = true) :
    (sample C D p S s).schema = (sample C D p S' s).schema ∧ (sample C D p S s).writes = (sample C D p S' s).writes ∧
    (sample C D p S s).err = (sample C D p S' s).err ∧
    (((sample C D p S s).hist = [S] ∧ (sample C D p S' s).hist = [S'] ∧ (sample C D p S s).err ≠ none ∧ (sample C D p S s).writes = []) ∨
      ((∀ k, Reached C D p k → (sample C D p S s).final k = (sample C D p S' s).final k) ∧
        ∀ k, ¬ Reached C D p k → (sample C D p S s).final k = S k ∧ (sample C D p S' s).final k = S' k)) := by
  obtain ⟨h1, h2, h3, h4⟩ := sample_fresh hok ht S S' s
  refine ⟨h1, h2, h3, h4.imp id ?_⟩
  rintro ⟨X, r, X', r', e1, e2, e3, e4⟩
  unfold RunResult.final
  rw [e1, e2]
  exact ⟨e3, e4⟩

/-- C77. Running again with the same random choices changes nothing, also after a run that failed. -/
theorem c77_again (hok : RunOK C D p) (ht : C.truncate = true) :
    (sample C D p (sample C D p S s).final s).final = (sample C D p S s).final ∧
    (sample C D p (sample C D p S s).final s).err = (sample C D p S s).err ∧
    (sample C D p (sample C D p S s).final s).writes = (sample C D p S s).writes := by
  obtain ⟨-, h2, h3, h4⟩ := c77_fresh (S := S) (S' := (sample C D p S s).final) (s := s) hok ht
  refine ⟨?_, h3.symm, h2.symm⟩
  rcases h4 with ⟨-, h5, -⟩ | ⟨h5, h6⟩
  · show ((sample C D p (sample C D p S s).final s).hist.head?.getD fun _ => []) = _
    rw [h5]
    rfl
  · funext k
    by_cases hk : Reached C D p k
    · exact (h5 k hk).symm
    · exact (h6 k hk).2

/-! ### Examples -/

def fyRun (C : RunConfig) (S : DbState) : RunResult := sample C (rxSetting rxDst) exPlan S 0

def fyC : RunConfig := { remap := dxRemap, truncate := true, merge := true, mult := { multiplier := 2 }, compact := { startKey := 100, columns := [(str! "s.o", [str! "id"])] } }

/-- The hypotheses are met by a run that compacts, multiplies and merges; its result from a full, an empty and a
half-filled destination. -/
theorem fy_fresh : RunOK fyC (rxSetting rxDst) exPlan ∧ fyC.truncate = true ∧ rxShow (fyRun fyC rxBefore) = rxShow (fyRun fyC fun _ => []) ∧
    rxShow (fyRun fyC rxBefore) = rxShow (fyRun fyC ((fyRun fyC rxBefore).hist[1]?.getD fun _ => [])) ∧
    rxShow (fyRun fyC rxBefore) = (none, [[[(str! "id", .int 2)], [(str! "id", .int 3)]], [[(str! "id", .int 200), (str! "uid", .int 1)], [(str! "id", .int 201), (str! "uid", .int 1)]], []]) := by
  refine ⟨?_, rfl, by decide +kernel, by decide +kernel, by decide +kernel⟩
  obtain ⟨h1, h2, h3, h4, h5, h6, -⟩ := rx_ok (C := { remap := dxRemap }) rfl
  exact ⟨h1, h2, h3, h4, fun h => (nomatch h), h6, by decide⟩

/-- Without truncation a run of merge mode adds the sample again: the second run leaves other contents. -/
theorem c77_merge_adds_again : rxShow (fyRun { remap := dxRemap, merge := true } (fyRun { remap := dxRemap, merge := true } fun _ => []).final) =
    (none, [[[(str! "id", .int 1)], [(str! "id", .int 3)]], [[(str! "id", .int 7), (str! "uid", .int 1)], [(str! "id", .int 15), (str! "uid", .int 3)]], []]) := by
  decide +kernel

/-- Without truncation and merging the second run fails on the primary keys of the first. -/
theorem c77_conflict : (fyRun { remap := dxRemap } (fyRun { remap := dxRemap } fun _ => []).final).err ≠ none := by
  decide +kernel

end Subsetter.Props
